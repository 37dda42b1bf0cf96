import Verif.Spec.IntelHex

/-
Specification of errors in the transfer of a text: a wrong, lost or added character, or two neighbours in the wrong
order.
-/

namespace C8S.Spec

/-- `text'` is `text` with one error in it. -/
inductive Slip : Str → Str → Prop where
  | changed {A B : Str} {c d : Char} : c ≠ d → Slip (A ++ c :: B) (A ++ d :: B)
  | lost {A B : Str} {c : Char} : Slip (A ++ c :: B) (A ++ B)
  | added {A B : Str} {c : Char} : Slip (A ++ B) (A ++ c :: B)
  | swapped {A B : Str} {c d : Char} : c ≠ d → Slip (A ++ c :: d :: B) (A ++ d :: c :: B)

end C8S.Spec
