import Verif.Model.Token

/-
Specification of the lexical structure: which pieces of text are tokens, what each one carries, that the longest
possible piece is always taken, what separates tokens, what a malformed text is reported as, and locations.
-/

namespace C8S.Spec

/-! ### Characters -/

/-- The code points with the Unicode property White_Space. -/
def whiteSpace : List Nat :=
  [0x9, 0xA, 0xB, 0xC, 0xD, 0x20, 0x85, 0xA0, 0x1680, 0x2000, 0x2001, 0x2002, 0x2003, 0x2004, 0x2005, 0x2006,
   0x2007, 0x2008, 0x2009, 0x200A, 0x2028, 0x2029, 0x202F, 0x205F, 0x3000]

/-- White space other than a newline. -/
def Blank (c : Char) : Prop := c.toNat ∈ whiteSpace ∧ c ≠ '\n'

def Decimal (c : Char) : Prop := '0' ≤ c ∧ c ≤ '9'

def Hexadecimal (c : Char) : Prop := Decimal c ∨ ('a' ≤ c ∧ c ≤ 'f') ∨ ('A' ≤ c ∧ c ≤ 'F')

def Binary (c : Char) : Prop := c = '0' ∨ c = '.' ∨ c = '1'

/-- A letter or an underscore. -/
def NameStart (c : Char) : Prop := c = '_' ∨ ('a' ≤ c ∧ c ≤ 'z') ∨ ('A' ≤ c ∧ c ≤ 'Z')

def NameChar (c : Char) : Prop := NameStart c ∨ Decimal c

instance (c : Char) : Decidable (Blank c) := by unfold Blank; infer_instance
instance (c : Char) : Decidable (Decimal c) := by unfold Decimal; infer_instance
instance (c : Char) : Decidable (Hexadecimal c) := by unfold Hexadecimal; infer_instance
instance (c : Char) : Decidable (Binary c) := by unfold Binary; infer_instance
instance (c : Char) : Decidable (NameStart c) := by unfold NameStart; infer_instance
instance (c : Char) : Decidable (NameChar c) := by unfold NameChar; infer_instance

/-! ### Numbers -/

/-- The value of a digit. A dot is the binary digit 0. -/
def digitVal (c : Char) : Nat :=
  if c = '.' then 0
  else if c.toNat ≤ 57 then c.toNat - 48
  else if c.toNat ≤ 70 then c.toNat - 55
  else c.toNat - 87

/-- The positional value of digits. -/
def positional (base : Nat) (digits : Str) : Nat := digits.foldl (fun acc c => acc * base + digitVal c) 0

/-! ### Tokens -/

/-- The characters between the quotes of a string literal: neither a quote nor a backslash, except that a backslash
may be followed by anything but a newline. -/
inductive StringBody : Str → Prop where
  | nil : StringBody []
  | plain {c : Char} {s : Str} : c ≠ '"' → c ≠ '\\' → StringBody s → StringBody (c :: s)
  | escape {c : Char} {s : Str} : c ≠ '\n' → StringBody s → StringBody ('\\' :: c :: s)

/-- The text is a token, given but for its location. `bin` is the reading of binary digits. A decimal or binary
number out of range is a token that carries an error. -/
inductive Lexeme (bin : Str → Nat) : Str → (Loc → Token) → Prop where
  | newline : Lexeme bin ['\n'] .newline
  | comma : Lexeme bin [','] .comma
  | labelMarker : Lexeme bin [':'] .labelMarker
  | directiveMarker : Lexeme bin ['.'] .directiveMarker
  | comment {s : Str} : '\n' ∉ s → Lexeme bin (';' :: s) (.singleLineComment (';' :: s))
  | name {c : Char} {s : Str} : NameStart c → (∀ d ∈ s, NameChar d) → Lexeme bin (c :: s) (.identifier (c :: s))
  | indirect {c : Char} : c = 'i' ∨ c = 'I' → Lexeme bin ['[', c, ']'] (.identifier ['[', c, ']'])
  | string {s : Str} : StringBody s → Lexeme bin ('"' :: (s ++ ['"'])) (.stringLiteral s)
  | hex {c : Char} {s : Str} : c = '$' ∨ c = '#' → s ≠ [] → s.length ≤ 3 → (∀ d ∈ s, Hexadecimal d) →
    Lexeme bin (c :: s) (.numericLiteral (positional 16 s))
  | decimal {s : Str} : s ≠ [] → (∀ d ∈ s, Decimal d) → positional 10 s ≤ 4095 →
    Lexeme bin s (.numericLiteral (positional 10 s))
  | decimalRange {s : Str} : s ≠ [] → (∀ d ∈ s, Decimal d) → 4095 < positional 10 s →
    Lexeme bin s (.error (.decimalLiteralOutOfRange s))
  | binary {s : Str} : s ≠ [] → (∀ d ∈ s, Binary d) → bin s ≤ 4095 → Lexeme bin ('%' :: s) (.numericLiteral (bin s))
  | binaryRange {s : Str} : s ≠ [] → (∀ d ∈ s, Binary d) → 4095 < bin s →
    Lexeme bin ('%' :: s) (.error (.binaryLiteralOutOfRange s))

/-- The text `s ++ rest` begins with the token `s`, and with no longer one. -/
def Longest (bin : Str → Nat) (s rest : Str) (k : Loc → Token) : Prop :=
  Lexeme bin s k ∧ ∀ s' rest' k', s' ++ rest' = s ++ rest → Lexeme bin s' k' → s'.length ≤ s.length

/-- What is reported for a text that begins with no token, by its first character. -/
inductive Malformed : Char → ScanError → Prop where
  | string : Malformed '"' .invalidStringLiteral
  | hex {c : Char} : c = '$' ∨ c = '#' → Malformed c .invalidHexadecimalLiteral
  | binary : Malformed '%' .invalidBinaryLiteral
  | indirect : Malformed '[' .expectedRegisterIndirect
  | other {c : Char} : c ≠ '"' → c ≠ '$' → c ≠ '#' → c ≠ '%' → c ≠ '[' → Malformed c (.invalidCharacter c)

def IsError (k : Loc → Token) : Prop := ∃ e, k = .error e

/-! ### Locations -/

/-- The number of newlines. -/
def newlines (s : Str) : Nat := s.count '\n'

/-- The number of characters after the last newline. -/
def sinceNewline (s : Str) : Nat := (s.reverse.takeWhile (· ≠ '\n')).length

/-- The number of characters up to and including the first newline, or of all. -/
def firstLine : Str → Nat
  | [] => 0
  | c :: s => if c = '\n' then 1 else firstLine s + 1

/-- The location of the text `s` when `before` is everything that precedes it in the file. -/
def locate (file before s : Str) : Loc := ⟨file, 1 + newlines before, 1 + sinceNewline before, firstLine s⟩

/-! ### Texts -/

/-- The text `rest`, preceded in the file by `before`, has the given tokens. -/
inductive Lex (bin : Str → Nat) (file : Str) : Str → Str → List Token → Prop where
  | done {before blanks : Str} : (∀ c ∈ blanks, Blank c) → Lex bin file before blanks []
  | token {before blanks s rest : Str} {k : Loc → Token} {tokens : List Token} :
    (∀ c ∈ blanks, Blank c) → Longest bin s rest k → ¬ IsError k →
    Lex bin file (before ++ blanks ++ s) rest tokens →
    Lex bin file before (blanks ++ s ++ rest) (k (locate file (before ++ blanks) s) :: tokens)
  | outOfRange {before blanks s rest : Str} {k : Loc → Token} :
    (∀ c ∈ blanks, Blank c) → Longest bin s rest k → IsError k →
    Lex bin file before (blanks ++ s ++ rest) [k (locate file (before ++ blanks) s)]
  | malformed {before blanks rest : Str} {c : Char} {e : ScanError} :
    (∀ c ∈ blanks, Blank c) → ¬ Blank c →
    (∀ s rest' k, s ++ rest' = c :: rest → ¬ Lexeme bin s k) → Malformed c e →
    Lex bin file before (blanks ++ c :: rest) [.error e (locate file (before ++ blanks) [c])]

/-- The reading of binary digits by the code: the value modulo the machine word. -/
def wordBinary [Target] (s : Str) : Nat := positional 2 s % 2 ^ usizeBits

/-- The intended reading of binary digits. -/
def trueBinary (s : Str) : Nat := positional 2 s

/-- Every binary literal in the text has a value that fits in a machine word (as any of at most 64 digits does on a
64-bit machine). -/
def SmallBinaries [Target] (text : Str) : Prop :=
  ∀ before s rest, text = before ++ '%' :: s ++ rest → (∀ d ∈ s, Binary d) → positional 2 s < 2 ^ usizeBits

end C8S.Spec
