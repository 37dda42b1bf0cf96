import Verif.Spec.Lexical

/-
How the tokens of a text relate to the text itself: the pieces of text they stand for. Which pieces are tokens is
not said here (see `Lexical`).
-/

namespace C8S.Spec

/-- A number as it is written in one of the three bases. -/
def Numeral (p : Str) : Prop :=
  (∃ c d, p = c :: d ∧ (c = '$' ∨ c = '#') ∧ 1 ≤ d.length ∧ d.length ≤ 3 ∧ ∀ x ∈ d, Hexadecimal x) ∨
  (∃ d, p = '%' :: d ∧ d ≠ [] ∧ ∀ x ∈ d, Binary x) ∨
  (p ≠ [] ∧ ∀ x ∈ p, Decimal x)

/-- The value of a number by its first character. -/
def numeralValue : Str → Nat
  | '$' :: d => positional 16 d
  | '#' :: d => positional 16 d
  | '%' :: d => positional 2 d
  | d => positional 10 d

/-- The piece of text a token stands for. A malformed literal is reported at its first character. -/
def Written : Token → Str → Prop
  | .newline _, p => p = ['\n']
  | .comma _, p => p = [',']
  | .labelMarker _, p => p = [':']
  | .directiveMarker _, p => p = ['.']
  | .identifier n _, p => p = n
  | .singleLineComment t _, p => p = t
  | .stringLiteral b _, p => p = '"' :: b ++ ['"']
  | .numericLiteral _ _, p => Numeral p
  | .error (.decimalLiteralOutOfRange d) _, p => p = d
  | .error (.binaryLiteralOutOfRange d) _, p => p = '%' :: d
  | .error (.invalidCharacter c) _, p => p = [c]
  | .error .invalidStringLiteral _, p => p = ['"']
  | .error .invalidHexadecimalLiteral _, p => p = ['$'] ∨ p = ['#']
  | .error .invalidBinaryLiteral _, p => p = ['%']
  | .error .expectedRegisterIndirect _, p => p = ['[']
  | .error .invalidDecimalLiteral _, _ => False
  | .error .invalidIdentifier _, _ => False

/-- The text is the sequence of the pieces, each preceded by blanks, and of a tail. -/
structure Pieces (text : Str) (tokens : List Token) (pieces : List (Str × Str)) (tail : Str) : Prop where
  text_eq : text = (pieces.map fun p => p.1 ++ p.2).flatten ++ tail
  blanks : ∀ p ∈ pieces, ∀ c ∈ p.1, Blank c
  count : pieces.length = tokens.length
  written : ∀ (i : Nat) (t : Token) (p : Str × Str), tokens[i]? = some t → pieces[i]? = some p → Written t p.2
  nonempty : ∀ p ∈ pieces, p.2 ≠ []
  tail_blank : (∀ e l, .error e l ∉ tokens) → ∀ c ∈ tail, Blank c

/-- The text before piece number `i`. -/
def textBefore (pieces : List (Str × Str)) (i : Nat) (p : Str × Str) : Str :=
  ((pieces.take i).map fun p => p.1 ++ p.2).flatten ++ p.1

end C8S.Spec
