import Verif.Spec.Isa

/- Instructions on registers that do not exist. -/

namespace C8S.Spec

/-- Nothing is wrong with the instruction but that one of its registers has a number above 15. -/
def NoSuchRegister (labels : LabelMap) (mnemonic : Str) (fields : List Field) : Prop :=
  (∀ reason, ¬ InstructionFails labels mnemonic fields reason) ∧ ∃ r, .generalPurposeRegister r ∈ fields ∧ 15 < r.toNat

end C8S.Spec
