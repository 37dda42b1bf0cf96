import Verif.Spec.Isa

/- The words that the instructions of the README table can have, listed by their digits. -/

namespace C8S.Spec

/-- The number is that of an instruction: it is one of the fixed words, or its first hexadecimal digit and its last ones
are as listed. The third digit of a shift is 0. -/
def InstructionWord (w : Nat) : Prop :=
  w ∈ [0x0000, 0x00E0, 0x00EE, 0x00F8, 0x00F9, 0x00FA] ∨
  w / 4096 ∈ [0x1, 0x2, 0x3, 0x4, 0x6, 0x7, 0xA, 0xB, 0xC, 0xD] ∨
  (w / 4096 ∈ [0x5, 0x9] ∧ w % 16 = 0) ∨
  (w / 4096 = 0x8 ∧ w % 16 ∈ [0, 1, 2, 3, 4, 5, 7]) ∨
  (w / 4096 = 0x8 ∧ w % 256 ∈ [0x06, 0x0E]) ∨
  (w / 4096 = 0xE ∧ w % 256 ∈ [0x9E, 0xA1]) ∨
  (w / 4096 = 0xF ∧ w % 256 ∈ [0x07, 0x0A, 0x15, 0x18, 0x1E, 0x29, 0x33, 0x55, 0x65])

instance (w : Nat) : Decidable (InstructionWord w) := by unfold InstructionWord; infer_instance

end C8S.Spec
