import Verif.Spec.Grammar
import Verif.Spec.Alphabet

/- Specification of where line breaks are needed. -/

namespace C8S.Spec

/-- What has been read ends with a list of arguments or operands that is empty or ends in a comma: after whole statements there
is one more directive or instruction, with such a list. -/
inductive Waiting : List Token → Prop where
  | directive {p args : List Token} {n : List Node} {s : Str} {l l' : Loc} {xs : List Literal} : Program p n →
    ItemList LiteralTok true args xs → Waiting (p ++ .directiveMarker l' :: .identifier s l :: args)
  | instruction {p args : List Token} {n : List Node} {s : Str} {l : Loc} {fs : List Field} : Program p n →
    ItemList OperandTok true args fs → Waiting (p ++ .identifier s l :: args)

/-- The first token is neither a newline nor a comment. -/
def BeginsStatement (ts : List Token) : Prop := ∃ t r, ts = t :: r ∧ ¬ (IsNewline t ∨ IsComment t)

/-- The pieces, each followed by a blank. -/
def onOneLine (pieces : List Str) : Str := pieces.flatMap (· ++ [' '])

end C8S.Spec
