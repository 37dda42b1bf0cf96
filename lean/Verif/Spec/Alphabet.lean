import Verif.Spec.Lexical

/- Specification of the characters a source text is made of. -/

namespace C8S.Spec

/-- The characters that can begin a token. -/
def Begins (c : Char) : Prop :=
  NameStart c ∨ Decimal c ∨ c ∈ ['\n', ',', ':', '.', ';', '"', '$', '#', '%', '[']

/-- A character that is not a blank and that no token begins with. -/
def Foreign (c : Char) : Prop := ¬ Blank c ∧ ¬ Begins c

instance (c : Char) : Decidable (Begins c) := by unfold Begins; infer_instance
instance (c : Char) : Decidable (Foreign c) := by unfold Foreign; infer_instance

/-- There is no lexical error among the tokens. -/
def Errorless (tokens : List Token) : Prop := ∀ e l, .error e l ∉ tokens

/-- The last token is a comment. -/
def EndsInComment (tokens : List Token) : Prop := ∃ t l, tokens.getLast? = some (.singleLineComment t l)

end C8S.Spec
