import Verif.Model.Scanner
import Verif.Model.Parser

/- Vocabulary on the counters of the tool. -/

namespace C8S.Spec

/-- The states of the tokenizer of a text between calls of `next`, however many there are. -/
inductive Visits [Target] (file text : Str) : Scanner → Prop where
  | start : Visits file text (Scanner.new file text)
  | next {s s' : Scanner} {t : Option Token} : Visits file text s → s.nextToken = .ret (t, s') → Visits file text s'

/-- The number of a statement's parts: its name, and its arguments or operands. -/
def partCount : Node → Nat
  | .label _ _ => 1
  | .directive _ _ xs => 1 + xs.length
  | .instruction _ _ fs => 1 + fs.length

end C8S.Spec
