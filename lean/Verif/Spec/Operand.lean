import Verif.Spec.Case
import Verif.Model.Parser

/- Specification of identifier operands, from README.md ("Registers" and "Labels"). -/

namespace C8S.Spec

/-- `c` is a hexadecimal digit, of either case, of value `n`. -/
def HexDigit (c : Char) (n : Nat) : Prop :=
  (48 ≤ c.toNat ∧ c.toNat ≤ 57 ∧ n + 48 = c.toNat) ∨
  (97 ≤ c.toNat ∧ c.toNat ≤ 102 ∧ n + 87 = c.toNat) ∨
  (65 ≤ c.toNat ∧ c.toNat ≤ 70 ∧ n + 55 = c.toNat)

instance (c : Char) (n : Nat) : Decidable (HexDigit c n) := by unfold HexDigit; infer_instance

/-- The documented spellings of the special registers. -/
def specialNames : List (Str × Field) := [
  ("dt".toList, .delayTimer), ("DT".toList, .delayTimer),
  ("st".toList, .soundTimer), ("ST".toList, .soundTimer),
  ("i".toList, .indexRegister), ("I".toList, .indexRegister),
  ("[i]".toList, .indexRegisterIndirect), ("[I]".toList, .indexRegisterIndirect),
  ("k".toList, .keypadRegister), ("K".toList, .keypadRegister),
  ("b".toList, .bcd), ("B".toList, .bcd),
  ("f".toList, .sprite), ("F".toList, .sprite)]

/-- The operand names a register, general purpose or special. -/
inductive RegisterNamed : Str → Field → Prop where
  | special {name : Str} {f : Field} : (name, f) ∈ specialNames → RegisterNamed name f
  | general {v c : Char} {r : U8} : v = 'v' ∨ v = 'V' → HexDigit c r.toNat →
    RegisterNamed [v, c] (.generalPurposeRegister r)

/-- What an identifier used as an operand stands for. -/
inductive OperandOf : Str → Field → Prop where
  | register {name : Str} {f : Field} : RegisterNamed name f → OperandOf name f
  | label {name : Str} : (∀ f, ¬ RegisterNamed name f) → OperandOf name (.identifier name)

end C8S.Spec
