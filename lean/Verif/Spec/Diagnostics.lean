import Verif.Spec.Pieces

/- How locations are printed in messages. -/

namespace C8S.Spec

/-- The digits are the number in decimal, without leading zeros. -/
def DecimalFor (s : Str) (n : Nat) : Prop :=
  (∀ c ∈ s, Decimal c) ∧ positional 10 s = n ∧ s ≠ [] ∧ (s = ['0'] ∨ s.head? ≠ some '0')

/-- The printed form of a stretch of text on one line, from one column to another: file, line, and columns, where the
last column is omitted when it is the first. -/
inductive LocationText (file : Str) (line first last : Nat) : Str → Prop where
  | single {l c : Str} : first = last → DecimalFor l line → DecimalFor c first →
    LocationText file line first last (file ++ ':' :: l ++ ':' :: c)
  | span {l c d : Str} : first < last → DecimalFor l line → DecimalFor c first → DecimalFor d last →
    LocationText file line first last (file ++ ':' :: l ++ ':' :: c ++ '-' :: d)

/-- The line of the character that follows `before`. -/
def lineAfter (before : Str) : Nat := 1 + newlines before

/-- The column of the character that follows `before`. -/
def columnAfter (before : Str) : Nat := 1 + sinceNewline before

/-- What is printed for the piece of text `s`, when `before` is everything that precedes it: the line it starts on, the
columns of its first character and of the last one on that line. -/
def LocatesText (file before s printed : Str) : Prop :=
  LocationText file (lineAfter before) (columnAfter before) (columnAfter (before ++ s.take (firstLine s - 1))) printed

end C8S.Spec
