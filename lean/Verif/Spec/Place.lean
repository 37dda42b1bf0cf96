import Verif.Spec.Grammar
import Verif.Spec.Calls
import Verif.Spec.Lexical

/- Places in a text where a token can start. -/

namespace C8S.Spec

/-- A text with these tokens does not end within a comment, and has no lexical error. -/
def Apart (tokens : List Token) : Prop :=
  NoLexError tokens ∧ ∀ t, tokens.getLast? = some t → ¬ IsComment t

/-- The text ends with a letter, a digit, an underscore or a dot. -/
def EndsInWord (text : Str) : Prop := ∃ p c, text = p ++ [c] ∧ (NameChar c ∨ c = '.')

end C8S.Spec
