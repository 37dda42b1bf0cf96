import Verif.Model.Parser

/- How long the lists of a program are. -/

namespace C8S.Spec

/-- The number of arguments or operands of a statement. -/
def listLength : Node → Nat
  | .label _ _ => 0
  | .directive _ _ xs => xs.length
  | .instruction _ _ fs => fs.length

/-- The number of commas among tokens. -/
def commas (ts : List Token) : Nat := (ts.filter fun | .comma _ => true | _ => false).length

/-- Any tokens that follow one another on one line have fewer commas than this. -/
def CommasBelow (k : Nat) (ts : List Token) : Prop :=
  ∀ before line after, ts = before ++ line ++ after → (∀ l, .newline l ∉ line) → commas line < k

end C8S.Spec
