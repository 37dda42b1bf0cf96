import Verif.Model.Scanner

/- Vocabulary on token streams: repeated calls of the iterator and moving tokens in the file. -/

namespace C8S.Spec

/-- The answers of the first `n` calls of `next`. -/
def answers [Target] : Nat → Scanner → Run (List (Option Token))
  | 0, _ => .ret []
  | n + 1, s => do
    let (t, s') ← s.nextToken
    let rest ← answers n s'
    return t :: rest

/-- The token with its location changed. -/
def mapLoc (f : Loc → Loc) : Token → Token
  | .singleLineComment t l => .singleLineComment t (f l)
  | .directiveMarker l => .directiveMarker (f l)
  | .identifier n l => .identifier n (f l)
  | .labelMarker l => .labelMarker (f l)
  | .stringLiteral b l => .stringLiteral b (f l)
  | .numericLiteral v l => .numericLiteral v (f l)
  | .comma l => .comma (f l)
  | .newline l => .newline (f l)
  | .error e l => .error e (f l)

/-- The token `n` lines further down. -/
def down (n : Nat) : Token → Token := mapLoc fun l => { l with line := l.line + n }

/-- The tokens of a text that reports no lexical error. -/
def NoLexError (tokens : List Token) : Prop := ∀ e l, .error e l ∉ tokens

/-- Nothing, or text that ends with a newline. -/
def WholeLines (text : Str) : Prop := text = [] ∨ ∃ t, text = t ++ ['\n']

end C8S.Spec
