import Verif.Spec.Lexical
import Verif.Spec.Locations

/- Vocabulary on the tokens of a text without their locations. -/

namespace C8S.Spec

/-- The location that stands for none. -/
def noLoc : Loc := ⟨[], 0, 0, 0⟩

/-- The text is made of these tokens, given without their locations, and has no lexical error. -/
inductive Cut (bin : Str → Nat) : Str → List Token → Prop where
  | done {blanks : Str} : (∀ c ∈ blanks, Blank c) → Cut bin blanks []
  | token {blanks s rest : Str} {k : Loc → Token} {tokens : List Token} :
    (∀ c ∈ blanks, Blank c) → Longest bin s rest k → ¬ IsError k → Cut bin rest tokens →
    Cut bin (blanks ++ s ++ rest) (k noLoc :: tokens)

/-- The character would be read as part of the token that it follows. -/
def Joins (bin : Str → Nat) (s : Str) (d : Char) : Prop := ∃ k, Lexeme bin (s ++ [d]) k

/-- A text without lexical errors, and a second text that has the tokens of the first, spelled the same, with other blanks before, between and after them.
No token is followed by a character that would be read as part of it. -/
inductive Respaced (bin : Str → Nat) : Str → Str → Prop where
  | done {blanks blanks' : Str} : (∀ c ∈ blanks, Blank c) → (∀ c ∈ blanks', Blank c) → Respaced bin blanks blanks'
  | token {blanks blanks' s rest rest' : Str} {k : Loc → Token} :
    (∀ c ∈ blanks, Blank c) → (∀ c ∈ blanks', Blank c) → Longest bin s rest k → ¬ IsError k →
    (∀ d r, rest' = d :: r → ¬ Joins bin s d) → Respaced bin rest rest' →
    Respaced bin (blanks ++ s ++ rest) (blanks' ++ s ++ rest')

end C8S.Spec
