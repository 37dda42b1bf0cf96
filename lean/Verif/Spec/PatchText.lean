import Verif.Spec.Lexical

/- Specification vocabulary for C132. -/

namespace C8S.Spec

/-- `digits width n` is one to three hexadecimal digits with the value `n`, for all `n` with at most `width` digits. -/
def WritesDigits (digits : Nat → Nat → Str) : Prop :=
  ∀ width n, width = 1 ∨ width = 2 ∨ width = 3 → n < 16 ^ width →
    digits width n ≠ [] ∧ (digits width n).length ≤ 3 ∧ (∀ d ∈ digits width n, Hexadecimal d) ∧
      positional 16 (digits width n) = n

end C8S.Spec
