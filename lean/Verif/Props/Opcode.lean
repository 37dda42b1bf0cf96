import Verif.Proofs.Opcode

/-
Properties C26 and C27 of instruction words. (C28, about disassembly text, is in Verif/Props/Disassembly.lean.)
-/

namespace C8S

open Opcode

/-- C26: a well-formed opcode has an instruction word, and decoding that word gives the opcode back; an opcode
that is not well-formed has no word (encoding panics). -/
theorem C26_decode_encode (op : Opcode) :
    (op.WellFormed → ∃ w, op.asInstruction = .ret w ∧ fromInstruction w = op) ∧
    (¬ op.WellFormed → op.asInstruction = .panic) :=
  ⟨fun h => ⟨_, asInstruction_eq h, fromInstruction_word h⟩, asInstruction_panic⟩

example : ∃ w, (DRW 10 11 5).asInstruction = .ret w ∧ fromInstruction w = DRW 10 11 5 :=
  (C26_decode_encode (DRW 10 11 5)).1 (by decide)

/-- C26: two different opcodes never share a word. -/
theorem C26_encode_injective (op op' : Opcode) (w : U16) (h : op.asInstruction = .ret w)
    (h' : op'.asInstruction = .ret w) : op = op' := by
  have hw : ∀ o : Opcode, o.asInstruction = .ret w → fromInstruction w = o := by
    intro o ho
    by_cases hwf : o.WellFormed
    · obtain ⟨w', e1, e2⟩ := (C26_decode_encode o).1 hwf
      rw [ho] at e1
      injection e1 with e1
      exact e1 ▸ e2
    · rw [(C26_decode_encode o).2 hwf] at ho
      exact absurd ho (by simp)
  exact (hw op h).symm.trans (hw op' h')

example : (DRW 10 11 5).WellFormed ∧ (DRW 10 11 5).asInstruction = .ret 0xDAB5 := by decide
example : ¬ (DRW 16 11 5).WellFormed := by decide

/-- C27: every 16-bit word decodes to a well-formed opcode; re-encoding gives the word back, unless the opcode
is NOP, which encodes to 0. -/
theorem C27_encode_decode (w : U16) :
    (fromInstruction w).WellFormed ∧
    (fromInstruction w ≠ .NOP → (fromInstruction w).asInstruction = .ret w) ∧
    (fromInstruction w = .NOP → (fromInstruction w).asInstruction = .ret 0) := by
  obtain ⟨hwf, hor⟩ := word_fromInstruction w
  refine ⟨hwf, fun hn => ?_, fun hn => by rw [hn]; rfl⟩
  rw [asInstruction_eq hwf, hor.resolve_left hn, BitVec.ofNat_toNat, BitVec.setWidth_eq]

example : fromInstruction 0xDAB5 = DRW 10 11 5 ∧ (fromInstruction 0xDAB5).asInstruction = .ret 0xDAB5 := by decide

/-- C27: the words that decode to NOP are exactly 0 and the words no opcode encodes to. -/
theorem C27_nop_iff (w : U16) :
    fromInstruction w = .NOP ↔ w = 0 ∨ ∀ op : Opcode, op.asInstruction ≠ .ret w := by
  constructor
  · intro h
    by_cases h0 : w = 0
    · exact .inl h0
    · refine .inr fun op hop => h0 ?_
      by_cases hwf : op.WellFormed
      · obtain ⟨w', e1, e2⟩ := (C26_decode_encode op).1 hwf
        rw [hop] at e1
        injection e1 with e1
        subst e1
        rw [h] at e2
        subst e2
        injection hop with hop
        exact hop.symm
      · rw [(C26_decode_encode op).2 hwf] at hop
        exact absurd hop (by simp)
  · rintro (rfl | h)
    · decide
    · refine Classical.byContradiction fun hn => ?_
      exact h _ ((C27_encode_decode w).2.1 hn)

example : fromInstruction 0xFFFF = .NOP ∧ fromInstruction 0x8AB7 = .SUBN 10 11 := by decide

end C8S
