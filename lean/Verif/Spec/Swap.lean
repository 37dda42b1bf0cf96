import Verif.Spec.Insert
import Verif.Spec.Provenance

/- Vocabulary on two neighbouring pieces of a program that change places. -/

namespace C8S.Spec

/-- In a program, the pieces `X` of `m` bytes and `Y` of `n` bytes stand next to each other, behind `A` and before `B`. There is
no `.org` in them, and no label is parted from its constant. -/
structure Neighbours (A X Y B : List Node) (m n : Nat) : Prop where
  left : NoOrg X
  right : NoOrg Y
  left_size : Reaches X 0 m
  right_size : Reaches Y 0 n
  left_whole : ∀ c, ¬ ConstantNext X c
  right_whole : ∀ c, ¬ ConstantNext Y c
  rest_whole : ∀ c, ¬ ConstantNext B c

/-- Statement number `i` of `A ++ (X ++ (Y ++ B))`, with an address `x`, is number `i'` of `A ++ (Y ++ (X ++ B))`, with `x'`. -/
def CarriedOver (A X Y : List Node) (m n : Nat) (i x i' x' : Nat) : Prop :=
  (i < A.length ∧ i' = i ∧ x' = x) ∨
  (A.length ≤ i ∧ i < A.length + X.length ∧ i' = i + Y.length ∧ x' = x + n) ∨
  (A.length + X.length ≤ i ∧ i < A.length + X.length + Y.length ∧ i' + X.length = i ∧ x' + m = x) ∨
  (A.length + X.length + Y.length ≤ i ∧ i' = i ∧ x' = x)

end C8S.Spec
