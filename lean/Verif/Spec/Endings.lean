import Verif.Spec.Lexical

/- Line endings. -/

namespace C8S.Spec

/-- The text with each newline preceded by a carriage return. -/
def crlf : Str → Str
  | [] => []
  | c :: s => if c = '\n' then '\r' :: '\n' :: crlf s else c :: crlf s

/-- No string literal extends over more than one line. -/
def StringsOnOneLine (tokens : List Token) : Prop := ∀ s l, .stringLiteral s l ∈ tokens → '\n' ∉ s

end C8S.Spec
