import Verif.Proofs.Disassembly

/- Property C28: the assembly text of an opcode, given back to the assembler. -/

namespace C8S

open Spec Opcode

/-- C28: the text of an opcode, as a line of its own, assembles to the word of that opcode exactly when its immediate value
has all its digits and it is not a shift with a second register. Missing for the full claim: the other opcodes, for which it
is false (`C28_claim_false`). -/
theorem C28_reassembles_partial [Target] (file : Str) (op : Opcode) (w : U16) (hi lo : U8) (h : op.asInstruction = .ret w)
    (hw : w.toNat = hi.toNat * 256 + lo.toNat) :
    Describes wordBinary file (op.toAssemblyString ++ "\n".toList) [(0, hi), (1, lo)] ↔ op.FullWidth ∧ op.PlainShift := by
  have hwf : op.WellFormed := by
    refine Classical.byContradiction fun hn => ?_
    rw [(C26_decode_encode op).2 hn] at h
    cases h
  have hb : Instruction.intoVec op = .ret [hi, lo] := intoVec_iff.2 ⟨w, hi, lo, h, rfl, hw⟩
  constructor
  · intro hd
    have hf : op.FullWidth := by
      refine Classical.byContradiction fun hn => ?_
      obtain ⟨ts, hc⟩ := describes_tokens hd
      exact padded_rejected hwf hn _ _ hc
    refine ⟨hf, ?_⟩
    rw [← dropY_iff]
    obtain ⟨w', e2, _⟩ := (C26_decode_encode op.dropY).1 (dropY_wellFormed hwf)
    have hb' : Instruction.intoVec op.dropY =
        .ret [((w' &&& 0xFF00) >>> 8).setWidth 8, ((w' &&& 0x00FF) >>> 0).setWidth 8] := by
      unfold Instruction.intoVec
      rw [e2]
      rfl
    have e := describes_unique hd (describes_opcode file hwf hf hb')
    obtain ⟨w2, hi', lo', e3, e4, e5⟩ := intoVec_iff.1 hb'
    rw [e4] at e
    simp only [placeAt, List.cons.injEq, Prod.mk.injEq, true_and, and_true] at e
    obtain ⟨rfl, rfl⟩ := e
    cases BitVec.eq_of_toNat_eq (hw.trans e5.symm)
    exact C26_encode_injective _ _ w e3 h
  · rintro ⟨hf, hs⟩
    rw [← (dropY_iff op).2 hs] at hb
    exact describes_opcode file hwf hf hb

example (file : Str) : Describes wordBinary file "drw v1, vb, $5\n".toList [(0, 0xD1), (1, 0xB5)] :=
  (C28_reassembles_partial file (DRW 1 11 5) 0xD1B5 0xD1 0xB5 rfl rfl).2 (by decide)

/-- C28, for decoding: the text of the opcode that a word decodes to assembles to that word under the same condition, when the
word is that of some instruction. -/
theorem C28_decoded_partial [Target] (file : Str) (w : U16) (hi lo : U8) (hw : w.toNat = hi.toNat * 256 + lo.toNat)
    (hn : fromInstruction w ≠ .NOP) :
    Describes wordBinary file ((fromInstruction w).toAssemblyString ++ "\n".toList) [(0, hi), (1, lo)] ↔
      (fromInstruction w).FullWidth ∧ (fromInstruction w).PlainShift :=
  C28_reassembles_partial file _ w hi lo ((C27_encode_decode w).2.1 hn) hw

example (file : Str) : Describes wordBinary file ((fromInstruction 0x1ABC).toAssemblyString ++ "\n".toList)
    [(0, 0x1A), (1, 0xBC)] :=
  (C28_decoded_partial file 0x1ABC 0x1A 0xBC rfl (by decide)).2 (by decide)

/-- C28, padding: the text of an opcode whose immediate value has fewer digits is not accepted, wherever it begins a program. -/
theorem C28_padded [Target] (file : Str) (op : Opcode) (rest : Str) (bytes : List (Nat × U8)) (h : op.WellFormed)
    (hf : ¬ op.FullWidth) : ¬ Describes wordBinary file (op.toAssemblyString ++ rest) bytes := by
  intro hd
  obtain ⟨ts, hc⟩ := describes_tokens hd
  exact padded_rejected h hf _ _ hc

example (file rest : Str) (bytes : List (Nat × U8)) :
    ¬ Describes wordBinary file ("jp $  5".toList ++ rest) bytes :=
  C28_padded file (JP 5) rest bytes (by decide) (by decide)

/-- C28, shifts: the text of a shift assembles to the shift with second register v0. -/
theorem C28_shift [Target] (file : Str) (x y : U8) (hx : x.toNat ≤ 15) (hy : y.toNat ≤ 15) :
    Describes wordBinary file ((SHR x y).toAssemblyString ++ "\n".toList) [(0, 0x80 + x), (1, 0x06)] ∧
    Describes wordBinary file ((SHL x y).toAssemblyString ++ "\n".toList) [(0, 0x80 + x), (1, 0x0E)] := by
  have ht : (0x80 + x : U8).toNat = 128 + x.toNat := by
    rw [BitVec.toNat_add]
    show (128 + x.toNat) % 256 = _
    omega
  have hl : ∀ op : Opcode, op.WellFormed → ∀ lo : U8, op.word = (128 + x.toNat) * 256 + lo.toNat →
      Instruction.intoVec op = .ret [0x80 + x, lo] := by
    intro op h lo e
    refine intoVec_iff.2 ⟨_, _, _, asInstruction_eq h, rfl, ?_⟩
    have := lo.isLt
    rw [BitVec.toNat_ofNat, ht, e]
    omega
  constructor
  · exact describes_opcode file (op := SHR x y) ⟨hx, hy⟩ trivial (hl (SHR x 0) ⟨hx, by decide⟩ 0x06 (by
      simp [word]
      omega))
  · exact describes_opcode file (op := SHL x y) ⟨hx, hy⟩ trivial (hl (SHL x 0) ⟨hx, by decide⟩ 0x0E (by
      simp [word]
      omega))

example (file : Str) : Describes wordBinary file "shr v1\n".toList [(0, 0x81), (1, 0x06)] :=
  (C28_shift file 1 2 (by decide) (by decide)).1

/-- C28 is false as stated: the text of `jp $005` is not accepted, and that of a shift of v1 by v2 assembles to another word. -/
theorem C28_claim_false [Target] :
    (∀ file bytes, ¬ Describes wordBinary file ((fromInstruction 0x1005).toAssemblyString ++ "\n".toList) bytes) ∧
    (∀ file, ¬ Describes wordBinary file ((fromInstruction 0x8126).toAssemblyString ++ "\n".toList) [(0, 0x81), (1, 0x26)]) := by
  have e1 : fromInstruction 0x1005 = JP 5 := by decide
  have e2 : fromInstruction 0x8126 = SHR 1 2 := by decide
  rw [e1, e2]
  constructor
  · intro file bytes
    exact C28_padded file (JP 5) _ bytes trivial (by decide)
  · intro file h
    exact absurd ((C28_reassembles_partial file (SHR 1 2) 0x8126 0x81 0x26 (by decide) (by decide)).1 h).2 (by decide)

example : (JP 5).toAssemblyString = "jp $  5".toList ∧ (SHR 1 2).toAssemblyString = "shr v1".toList := by decide

example : (DRW 1 11 5).toAssemblyString = "drw v1, vb, $5".toList ∧ (DRW 1 11 5).asInstruction = .ret 0xD1B5 ∧
    (DRW 1 11 5).FullWidth ∧ (DRW 1 11 5).PlainShift := by decide

end C8S
