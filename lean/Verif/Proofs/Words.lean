import Verif.Spec.Words
import Verif.Proofs.Disassembly
import Verif.Props.Instruction
import Verif.Props.Opcode
import Verif.Props.Source

/- Lemmas on the words of instructions. -/

namespace C8S

open Spec Opcode

/-- A word given by its first digit, and the rest. -/
theorem first_digit {w k : Nat} (hk : k ∈ [0x1, 0x2, 0x3, 0x4, 0x6, 0x7, 0xA, 0xB, 0xC, 0xD]) (r : Nat) (e : w = k * 4096 + r)
    (h : r < 4096) : InstructionWord w := by
  refine .inr (.inl ?_)
  have : w / 4096 = k := by omega
  rw [this]
  exact hk

theorem last_eight {w k : Nat} (hk : k ∈ [0, 1, 2, 3, 4, 5, 7]) (r : Nat) (e : w = 0x8000 + r * 16 + k)
    (h : r < 256) : InstructionWord w := by
  have hk' : k < 16 := by
    simp only [List.mem_cons, List.not_mem_nil, or_false] at hk
    omega
  refine .inr (.inr (.inr (.inl ⟨by omega, ?_⟩)))
  have : w % 16 = k := by omega
  rw [this]
  exact hk

theorem last_F {w k : Nat} (hk : k ∈ [0x07, 0x0A, 0x15, 0x18, 0x1E, 0x29, 0x33, 0x55, 0x65]) (r : Nat)
    (e : w = 0xF000 + k + r * 256) (h : r ≤ 15) : InstructionWord w := by
  have hk' : k < 256 := by
    simp only [List.mem_cons, List.not_mem_nil, or_false] at hk
    omega
  refine .inr (.inr (.inr (.inr (.inr (.inr ⟨by omega, ?_⟩)))))
  have : w % 256 = k := by omega
  rw [this]
  exact hk

theorem last_E {w k : Nat} (hk : k ∈ [0x9E, 0xA1]) (r : Nat) (e : w = 0xE000 + k + r * 256) (h : r ≤ 15) :
    InstructionWord w := by
  have hk' : k < 256 := by
    simp only [List.mem_cons, List.not_mem_nil, or_false] at hk
    omega
  refine .inr (.inr (.inr (.inr (.inr (.inl ⟨by omega, ?_⟩)))))
  have : w % 256 = k := by omega
  rw [this]
  exact hk

theorem last_shift {w k : Nat} (hk : k ∈ [0x06, 0x0E]) (r : Nat) (e : w = 0x8000 + k + r * 256) (h : r ≤ 15) :
    InstructionWord w := by
  have hk' : k < 256 := by
    simp only [List.mem_cons, List.not_mem_nil, or_false] at hk
    omega
  refine .inr (.inr (.inr (.inr (.inl ⟨by omega, ?_⟩))))
  have : w % 256 = k := by omega
  rw [this]
  exact hk

theorem last_zero {w k : Nat} (hk : k ∈ [0x5, 0x9]) (r : Nat) (e : w = k * 4096 + r * 16) (h : r < 256) :
    InstructionWord w := by
  refine .inr (.inr (.inl ⟨?_, by omega⟩))
  have : w / 4096 = k := by omega
  rw [this]
  exact hk

/-- The word of an opcode that can be written. -/
theorem word_listed {op : Opcode} (h : op.WellFormed) (hp : op.PlainShift) : InstructionWord op.word := by
  cases op with
  | NOP => exact .inl (by simp [word])
  | CLS => exact .inl (by simp [word])
  | RET => exact .inl (by simp [word])
  | DEREF_I => exact .inl (by simp [word])
  | TRAP => exact .inl (by simp [word])
  | TRAPRET => exact .inl (by simp [word])
  | JP n => exact first_digit (k := 1) (by simp) n.toNat rfl n.isLt
  | CALL n => exact first_digit (k := 2) (by simp) n.toNat rfl n.isLt
  | LD_I n => exact first_digit (k := 10) (by simp) n.toNat rfl n.isLt
  | JP_V0 n => exact first_digit (k := 11) (by simp) n.toNat rfl n.isLt
  | SE_IMMEDIATE x v =>
    have hv := v.isLt
    simp only [WellFormed, word] at h ⊢
    exact first_digit (k := 3) (by simp) (x.toNat * 256 + v.toNat) (by omega) (by omega)
  | SNE_IMMEDIATE x v =>
    have hv := v.isLt
    simp only [WellFormed, word] at h ⊢
    exact first_digit (k := 4) (by simp) (x.toNat * 256 + v.toNat) (by omega) (by omega)
  | LD_IMMEDIATE x v =>
    have hv := v.isLt
    simp only [WellFormed, word] at h ⊢
    exact first_digit (k := 6) (by simp) (x.toNat * 256 + v.toNat) (by omega) (by omega)
  | ADD_IMMEDIATE x v =>
    have hv := v.isLt
    simp only [WellFormed, word] at h ⊢
    exact first_digit (k := 7) (by simp) (x.toNat * 256 + v.toNat) (by omega) (by omega)
  | RND x v =>
    have hv := v.isLt
    simp only [WellFormed, word] at h ⊢
    exact first_digit (k := 12) (by simp) (x.toNat * 256 + v.toNat) (by omega) (by omega)
  | DRW x y n =>
    simp only [WellFormed, word] at h ⊢
    exact first_digit (k := 13) (by simp) (x.toNat * 256 + y.toNat * 16 + n.toNat) (by omega) (by omega)
  | SE_REGISTER x y =>
    simp only [WellFormed, word] at h ⊢
    exact last_zero (k := 5) (by simp) (x.toNat * 16 + y.toNat) (by omega) (by omega)
  | SNE_REGISTER x y =>
    simp only [WellFormed, word] at h ⊢
    exact last_zero (k := 9) (by simp) (x.toNat * 16 + y.toNat) (by omega) (by omega)
  | LD_REGISTER x y =>
    simp only [WellFormed, word] at h ⊢
    exact last_eight (k := 0) (by simp) (x.toNat * 16 + y.toNat) (by omega) (by omega)
  | OR x y =>
    simp only [WellFormed, word] at h ⊢
    exact last_eight (k := 1) (by simp) (x.toNat * 16 + y.toNat) (by omega) (by omega)
  | AND x y =>
    simp only [WellFormed, word] at h ⊢
    exact last_eight (k := 2) (by simp) (x.toNat * 16 + y.toNat) (by omega) (by omega)
  | XOR x y =>
    simp only [WellFormed, word] at h ⊢
    exact last_eight (k := 3) (by simp) (x.toNat * 16 + y.toNat) (by omega) (by omega)
  | ADD_REGISTER x y =>
    simp only [WellFormed, word] at h ⊢
    exact last_eight (k := 4) (by simp) (x.toNat * 16 + y.toNat) (by omega) (by omega)
  | SUB x y =>
    simp only [WellFormed, word] at h ⊢
    exact last_eight (k := 5) (by simp) (x.toNat * 16 + y.toNat) (by omega) (by omega)
  | SUBN x y =>
    simp only [WellFormed, word] at h ⊢
    exact last_eight (k := 7) (by simp) (x.toNat * 16 + y.toNat) (by omega) (by omega)
  | SHR x y =>
    simp only [WellFormed, PlainShift, word] at h hp ⊢
    subst hp
    exact last_shift (k := 6) (by simp) x.toNat (by simp) h.1
  | SHL x y =>
    simp only [WellFormed, PlainShift, word] at h hp ⊢
    subst hp
    exact last_shift (k := 14) (by simp) x.toNat (by simp) h.1
  | SE_K x => exact last_E (k := 158) (by simp) x.toNat rfl h
  | SNE_K x => exact last_E (k := 161) (by simp) x.toNat rfl h
  | LD_X_DT x => exact last_F (k := 7) (by simp) x.toNat rfl h
  | LD_X_K x => exact last_F (k := 10) (by simp) x.toNat rfl h
  | LD_DT_X x => exact last_F (k := 21) (by simp) x.toNat rfl h
  | LD_ST_X x => exact last_F (k := 24) (by simp) x.toNat rfl h
  | ADD_I_X x => exact last_F (k := 30) (by simp) x.toNat rfl h
  | SPRITE_I x => exact last_F (k := 41) (by simp) x.toNat rfl h
  | BCD_I x => exact last_F (k := 51) (by simp) x.toNat rfl h
  | SAVE_I x => exact last_F (k := 85) (by simp) x.toNat rfl h
  | RESTORE_I x => exact last_F (k := 101) (by simp) x.toNat rfl h

/-- The listed words decode to opcodes that can be written, and are theirs. -/
theorem listed_decodes {w : U16} (h : InstructionWord w.toNat) :
    (w = 0 ∨ fromInstruction w ≠ .NOP) ∧ (fromInstruction w).PlainShift := by
  have hlt := w.isLt
  have key : ∀ op : Opcode, op ≠ .NOP → op.PlainShift → fromInstruction w = op →
      (w = 0 ∨ fromInstruction w ≠ .NOP) ∧ (fromInstruction w).PlainShift := by
    intro op h1 h2 e
    rw [e]
    exact ⟨.inr h1, h2⟩
  have e := fun a b c d ha hb hc hd => fromInstruction_nibbles w a b c d ha hb hc hd
  unfold InstructionWord at h
  simp only [List.mem_cons, List.not_mem_nil, or_false] at h
  rcases h with h | h | ⟨h, h'⟩ | ⟨h, h'⟩ | ⟨h, h'⟩ | ⟨h, h'⟩ | ⟨h, h'⟩
  · rcases h with h | h | h | h | h | h
    · have : w = 0 := BitVec.eq_of_toNat_eq h
      subst this
      exact ⟨.inl rfl, by decide⟩
    · exact key .CLS (by simp) trivial (by rw [e 0 0 14 0 (by omega) (by omega) (by omega) (by omega)]; rfl)
    · exact key .RET (by simp) trivial (by rw [e 0 0 14 14 (by omega) (by omega) (by omega) (by omega)]; rfl)
    · exact key .DEREF_I (by simp) trivial (by rw [e 0 0 15 8 (by omega) (by omega) (by omega) (by omega)]; rfl)
    · exact key .TRAPRET (by simp) trivial (by rw [e 0 0 15 9 (by omega) (by omega) (by omega) (by omega)]; rfl)
    · exact key .TRAP (by simp) trivial (by rw [e 0 0 15 10 (by omega) (by omega) (by omega) (by omega)]; rfl)
  · rcases h with h | h | h | h | h | h | h | h | h | h <;>
      (rw [e _ _ _ _ h rfl rfl rfl]; exact ⟨.inr (by simp), trivial⟩)
  · rcases h with h | h <;>
      (rw [e _ _ _ _ h rfl rfl h']; exact ⟨.inr (by simp), trivial⟩)
  · rcases h' with h' | h' | h' | h' | h' | h' | h' <;>
      (rw [e _ _ _ _ h rfl rfl h']; exact ⟨.inr (by simp), trivial⟩)
  · rcases h' with h' | h'
    · exact key (.SHR (BitVec.ofNat 8 (w.toNat / 256 % 16)) 0) (by simp) rfl
        (by rw [e 8 _ 0 6 h rfl (by omega) (by omega)]; rfl)
    · exact key (.SHL (BitVec.ofNat 8 (w.toNat / 256 % 16)) 0) (by simp) rfl
        (by rw [e 8 _ 0 14 h rfl (by omega) (by omega)]; rfl)
  · rcases h' with h' | h'
    · rw [e 14 _ 9 14 h rfl (by omega) (by omega)]; exact ⟨.inr (by simp), trivial⟩
    · rw [e 14 _ 10 1 h rfl (by omega) (by omega)]; exact ⟨.inr (by simp), trivial⟩
  · rcases h' with h' | h' | h' | h' | h' | h' | h' | h' | h'
    · rw [e 15 _ 0 7 h rfl (by omega) (by omega)]; exact ⟨.inr (by simp), trivial⟩
    · rw [e 15 _ 0 10 h rfl (by omega) (by omega)]; exact ⟨.inr (by simp), trivial⟩
    · rw [e 15 _ 1 5 h rfl (by omega) (by omega)]; exact ⟨.inr (by simp), trivial⟩
    · rw [e 15 _ 1 8 h rfl (by omega) (by omega)]; exact ⟨.inr (by simp), trivial⟩
    · rw [e 15 _ 1 14 h rfl (by omega) (by omega)]; exact ⟨.inr (by simp), trivial⟩
    · rw [e 15 _ 2 9 h rfl (by omega) (by omega)]; exact ⟨.inr (by simp), trivial⟩
    · rw [e 15 _ 3 3 h rfl (by omega) (by omega)]; exact ⟨.inr (by simp), trivial⟩
    · rw [e 15 _ 5 5 h rfl (by omega) (by omega)]; exact ⟨.inr (by simp), trivial⟩
    · rw [e 15 _ 6 5 h rfl (by omega) (by omega)]; exact ⟨.inr (by simp), trivial⟩

end C8S
