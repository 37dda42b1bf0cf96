import Verif.Spec.Lexical

/- Where white space is needed between two tokens. -/

namespace C8S.Spec

/-- A token that is written like this goes on with the character: a comment with all but the newline, a name with letters,
digits and the underscore, a decimal number with digits, a hexadecimal number with fewer than three digits with hexadecimal
digits, and a binary number with binary digits and dots. No other token goes on. -/
def RunsOn : Str → Char → Prop
  | [], _ => False
  | c :: t, d => (c = ';' ∧ d ≠ '\n') ∨ (NameStart c ∧ NameChar d) ∨ (Decimal c ∧ Decimal d) ∨
    ((c = '$' ∨ c = '#') ∧ t.length < 3 ∧ Hexadecimal d) ∨ (c = '%' ∧ Binary d)

instance : (s : Str) → (d : Char) → Decidable (RunsOn s d)
  | [], _ => .isFalse fun h => h
  | _ :: _, _ => by unfold RunsOn; infer_instance

/-- The text has no lexical error and is made of tokens that are written like this, with blanks before, between and after
them. -/
inductive MadeOf (bin : Str → Nat) : Str → List Str → Prop where
  | done {blanks : Str} : (∀ c ∈ blanks, Blank c) → MadeOf bin blanks []
  | token {blanks s rest : Str} {k : Loc → Token} {parts : List Str} : (∀ c ∈ blanks, Blank c) → Longest bin s rest k →
    ¬ IsError k → MadeOf bin rest parts → MadeOf bin (blanks ++ s ++ rest) (s :: parts)

/-- The blank between two tokens, if one is needed. -/
def gap (s t : Str) : Str :=
  match t with
  | [] => []
  | d :: _ => if RunsOn s d then [' '] else []

/-- Tokens with as few blanks between them as needed. -/
def packedText : List Str → Str
  | [] => []
  | [s] => s
  | s :: t :: r => s ++ gap s t ++ packedText (t :: r)

end C8S.Spec
