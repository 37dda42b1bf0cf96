import Verif.Proofs.Words

/- Property C78: which words can be written as instructions. -/

namespace C8S

open Spec Opcode

/-- C78: the words that decode to an opcode other than NOP, and 0, but for shifts with a second register. -/
theorem C78_decoded (w : U16) :
    InstructionWord w.toNat ↔ (w = 0 ∨ fromInstruction w ≠ .NOP) ∧ (fromInstruction w).PlainShift := by
  refine ⟨listed_decodes, ?_⟩
  rintro ⟨h1, h2⟩
  rcases h1 with rfl | h1
  · decide
  · obtain ⟨hw, he⟩ := word_fromInstruction w
    rcases he with he | he
    · exact (h1 he).elim
    · rw [← he]
      exact word_listed hw h2

example : InstructionWord 0x1ABC ∧ fromInstruction 0x1ABC = .JP 0xABC ∧ ¬ InstructionWord 0xFFFF ∧
    fromInstruction 0xFFFF = .NOP := by decide

/-- C78: these are the words of the instructions that can be written, with any labels. -/
theorem C78_words (w : U16) : (∃ labels m fs, Encodes labels m fs w.toNat) ↔ InstructionWord w.toNat := by
  constructor
  · rintro ⟨labels, m, fs, h⟩
    obtain ⟨op, hop, hw⟩ := (C21_word_iff labels m fs w).2 h
    obtain ⟨hm, hfit, hy⟩ := rawMatch_sound (from_ok_iff.1 hop)
    have hp : op.PlainShift := by
      cases op with
      | SHR x y => exact BitVec.eq_of_toNat_eq (hy (by simp [row]))
      | SHL x y => exact BitVec.eq_of_toNat_eq (hy (by simp [row]))
      | _ => trivial
    have hf : op.WellFormed := by
      refine Classical.byContradiction fun hn => ?_
      rw [(C26_decode_encode op).2 hn] at hw
      cases hw
    have e := asInstruction_eq hf
    rw [hw] at e
    have e' := congrArg BitVec.toNat (Run.ret.inj e)
    rw [BitVec.toNat_ofNat, Nat.mod_eq_of_lt (word_lt hf)] at e'
    rw [e']
    exact word_listed hf hp
  · intro h
    obtain ⟨h1, h2⟩ := listed_decodes h
    have hwf := (C27_encode_decode w).1
    have hsel := parts_select _ hwf
    rw [(dropY_iff _).2 h2] at hsel
    refine ⟨[], _, _, (C21_word_iff _ _ _ w).1 ⟨_, hsel, ?_⟩⟩
    by_cases e : fromInstruction w = .NOP
    · rcases h1 with rfl | h1
      · exact (C27_encode_decode 0).2.2 e
      · exact (h1 e).elim
    · exact (C27_encode_decode w).2.1 e

example : ∃ labels m fs, Encodes labels m fs 0x6A05 := (C78_words 0x6A05).2 (by decide)

/-- C78: for each of them there is a source text of one instruction with these two bytes as its output, and for no other
word. -/
theorem C78_source [Target] (file : Str) (hi lo : U8) : InstructionWord (hi.toNat * 256 + lo.toNat) ↔
    ∃ text tokens l m fs, scan file text = .ret tokens ∧ parse tokens = .ret (.ok [.instruction l m fs]) ∧
      Describes wordBinary file text [(0, hi), (1, lo)] := by
  have h8 := hi.isLt
  have l8 := lo.isLt
  have hw : (BitVec.ofNat 16 (hi.toNat * 256 + lo.toNat)).toNat = hi.toNat * 256 + lo.toNat := by
    rw [BitVec.toNat_ofNat, Nat.mod_eq_of_lt (by omega)]
  generalize hwe : BitVec.ofNat 16 (hi.toNat * 256 + lo.toNat) = w at hw
  rw [← hw]
  constructor
  · intro h
    obtain ⟨h1, h2⟩ := listed_decodes h
    have hwf := (C27_encode_decode w).1
    have hsel := parts_select _ hwf
    rw [(dropY_iff _).2 h2] at hsel
    have hword : (fromInstruction w).asInstruction = .ret w := by
      by_cases e : fromInstruction w = .NOP
      · rcases h1 with e0 | h1
        · rw [e0]
          exact (C27_encode_decode 0).2.2 (e0 ▸ e)
        · exact (h1 e).elim
      · exact (C27_encode_decode w).2.1 e
    have hbytes : Instruction.intoVec (fromInstruction w) = .ret [hi, lo] := by
      unfold Instruction.intoVec
      rw [hword]
      simp only [Run.ret_bind, Run.pure_eq]
      have e1 : (((w &&& 0xFF00) >>> 8).setWidth 8 : U8) = hi := by
        apply BitVec.eq_of_toNat_eq
        rw [hi8_toNat, hw]
        omega
      have e2 : (((w &&& 0x00FF) >>> 0).setWidth 8 : U8) = lo := by
        apply BitVec.eq_of_toNat_eq
        rw [lo8_toNat, hw]
        omega
      rw [e1, e2]
    generalize fromInstruction w = op at *
    have hformed : ∀ n ∈ [Node.instruction noLoc op.mnemonicOf (op.parts.map Prod.snd)], Formed n := by
      intro n hn
      rw [List.mem_singleton] at hn
      subst hn
      refine ⟨op.mnemonicOf_name, ?_⟩
      cases op <;> simp only [WellFormed] at hwf <;>
        simp [parts, regPart, imm8Part, imm4Part, imm12Part, OperandFormed, *]
    obtain ⟨tokens, ns, hs, hp, e⟩ := C13_round_trip file _ hformed
    obtain ⟨l, rfl⟩ : ∃ l, ns = [.instruction l op.mnemonicOf (op.parts.map Prod.snd)] := by
      match ns, e with
      | [.instruction l m fs], e =>
        cases e
        exact ⟨l, rfl⟩
      | [.label l s], e => cases e
      | [.directive l s xs], e => cases e
    exact ⟨_, tokens, l, _, _, hs, hp, (describes_iff _ _ _).2 ⟨_, _, _, hs, hp, assemble_one hsel hbytes rfl, rfl⟩⟩
  · rintro ⟨text, tokens, l, m, fs, hs, hp, hd⟩
    obtain ⟨tokens', nodes', ranges, hs', hp', ha, hb⟩ := (describes_iff _ _ _).1 hd
    cases hs.symm.trans hs'
    cases hp.symm.trans hp'
    refine (C78_words w).1 ?_
    have hr := program_registers ((parse_ok_iff _ _).1 hp) l m fs (by simp)
    cases hop : Instruction.fromMnemonicAndParameters m fs [] with
    | error e =>
      rw [assemble, show defineLabels [.instruction l m fs] = .ok [] from rfl] at ha
      simp only [emitDataRanges, emitLoop, hop] at ha
      cases ha
    | ok op =>
      obtain ⟨hi', lo', hv, henc, _⟩ := C25_two_bytes [] m fs op hr hop
      cases ha.symm.trans (assemble_one hop hv rfl)
      cases hb
      exact ⟨[], m, fs, by rw [hw]; exact henc⟩

/-! ### Examples -/

example : InstructionWord 0x8126 = False ∧ InstructionWord 0x8106 ∧ InstructionWord 0xD123 ∧ ¬ InstructionWord 0x5121 ∧
    ¬ InstructionWord 0x00FF := by
  decide

/-- The word `8106` has a source text. -/
example : ∃ text tokens l m fs, scan [] text = .ret tokens ∧ parse tokens = .ret (.ok [.instruction l m fs]) ∧
    Describes wordBinary [] text [(0, 0x81), (1, 0x06)] :=
  (C78_source [] 0x81 0x06).1 (by decide)

end C8S
