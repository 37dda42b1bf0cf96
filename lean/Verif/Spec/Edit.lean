import Verif.Spec.Rewrite
import Verif.Model.Parser
import Verif.Model.Scanner

/- Vocabulary on changes of a program in place. -/

namespace C8S.Spec

/-- The text, read as a file of its own, has these statements. -/
def Statements [Target] (text : Str) (nodes : List Node) : Prop :=
  ∃ file tokens, scan file text = .ret tokens ∧ parse tokens = .ret (.ok nodes)

/-- Statements of the same number of bytes, all of which are instructions or `.db`. -/
structure SameBytes (X Y : List Node) (k : Nat) : Prop where
  left : DataOnly X
  right : DataOnly Y
  left_ne : X ≠ []
  right_ne : Y ≠ []
  left_size : Reaches X 0 k
  right_size : Reaches Y 0 k

end C8S.Spec
