import Verif.Spec.Lexical

/-! When a conversion of binary digits is correct. -/

namespace C8S.Spec

/-- Binary digits are converted to this value of theirs if it is up to 4095, and reported otherwise. -/
def Converts (bin : Str → Nat) (conv : Str → Except ScanError Nat) : Prop :=
  ∀ digits, digits ≠ [] → (∀ d ∈ digits, Binary d) →
    (bin digits ≤ 4095 → conv digits = .ok (bin digits)) ∧
    (4095 < bin digits → conv digits = .error (.binaryLiteralOutOfRange digits))

end C8S.Spec
