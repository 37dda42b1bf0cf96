import Verif.Spec.Cut
import Verif.Spec.Case
import Verif.Spec.Rewrite

/- Texts that differ in the spelling of some tokens: letter case, number notation, label names. -/

namespace C8S.Spec

/-- The relation holds between the elements of two lists, one by one. -/
inductive Each {α β : Type} (R : α → β → Prop) : List α → List β → Prop where
  | nil : Each R [] []
  | cons {x : α} {y : β} {xs : List α} {ys : List β} : R x y → Each R xs ys → Each R (x :: xs) (y :: ys)

/-! ### Letter case -/

/-- The tokens, in the same place, are the same but for the case of letters in a name, a string or a comment. -/
inductive Recased : Token → Token → Prop where
  | same {t : Token} : Recased t t
  | name {s s' : Str} {l : Loc} : SameLetters s s' → Recased (.identifier s l) (.identifier s' l)
  | string {s s' : Str} {l : Loc} : SameLetters s s' → Recased (.stringLiteral s l) (.stringLiteral s' l)
  | comment {s s' : Str} {l : Loc} : SameLetters s s' → Recased (.singleLineComment s l) (.singleLineComment s' l)

/-- The statements are the same but for the case of letters in a mnemonic or in the name of a directive. -/
inductive RecasedStatement : Node → Node → Prop where
  | label {l l' : Loc} {s : Str} : RecasedStatement (.label l s) (.label l' s)
  | directive {l l' : Loc} {s s' : Str} {xs : List Literal} : SameLetters s s' →
    RecasedStatement (.directive l s xs) (.directive l' s' xs)
  | instruction {l l' : Loc} {m m' : Str} {fs : List Field} : SameLetters m m' →
    RecasedStatement (.instruction l m fs) (.instruction l' m' fs)

/-- The tokens define the label: its name is followed by a colon. -/
def DefinesLabel (ts : List Token) (s : Str) : Prop := ∃ p l l' r, ts = p ++ .identifier s l :: .labelMarker l' :: r

/-- The spellings in mixed case of the timers, which are not taken for registers. -/
def mixedTimers : List Str := ["Dt".toList, "dT".toList, "St".toList, "sT".toList]

/-- A change of letter case that does not matter: in a comment, and in a name that is not one of a label, unless it is
a spelling in mixed case of a timer. -/
inductive HarmlessCase (ts ts' : List Token) : Token → Token → Prop where
  | same {t : Token} : HarmlessCase ts ts' t t
  | name {s s' : Str} {l : Loc} : SameLetters s s' → ¬ DefinesLabel ts s → ¬ DefinesLabel ts' s' → s ∉ mixedTimers →
    s' ∉ mixedTimers → HarmlessCase ts ts' (.identifier s l) (.identifier s' l)
  | comment {s s' : Str} {l : Loc} : SameLetters s s' →
    HarmlessCase ts ts' (.singleLineComment s l) (.singleLineComment s' l)

/-! ### Other spellings -/

/-- Two texts without lexical errors, made of the same number of tokens. The relation holds between the tokens of the
one and of the other, given without their locations; the blanks before, between and after them do not matter. -/
inductive Respelled (bin : Str → Nat) (R : Token → Token → Prop) : Str → Str → Prop where
  | done {blanks blanks' : Str} : (∀ c ∈ blanks, Blank c) → (∀ c ∈ blanks', Blank c) → Respelled bin R blanks blanks'
  | token {blanks blanks' s s' rest rest' : Str} {k k' : Loc → Token} :
    (∀ c ∈ blanks, Blank c) → (∀ c ∈ blanks', Blank c) → Longest bin s rest k → Longest bin s' rest' k' →
    ¬ IsError k → ¬ IsError k' → R (k noLoc) (k' noLoc) → Respelled bin R rest rest' →
    Respelled bin R (blanks ++ s ++ rest) (blanks' ++ s' ++ rest')

/-- The token with a name replaced. -/
def renameToken (f : Str → Str) : Token → Token
  | .identifier s l => .identifier (f s) l
  | t => t

end C8S.Spec
