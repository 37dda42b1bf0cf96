import Verif.Spec.ByLine
import Verif.Spec.Source
import Verif.Spec.Locations
import Verif.Spec.Layout
import Verif.Spec.Lexical
import Verif.Spec.Grammar

/- Specification of the reports that can occur. -/

namespace C8S.Spec

/-- The lexical errors that can occur. Two kinds do not: an invalid identifier and an invalid decimal literal. -/
inductive LexicalPossible [Target] : ScanError → Prop where
  | string : LexicalPossible .invalidStringLiteral
  | hex : LexicalPossible .invalidHexadecimalLiteral
  | binary : LexicalPossible .invalidBinaryLiteral
  | indirect : LexicalPossible .expectedRegisterIndirect
  | character {c : Char} : c.toNat ∉ whiteSpace → ¬ NameStart c → ¬ Decimal c → c ∉ [',', ':', '.', ';', '"', '$', '#', '%', '['] →
    LexicalPossible (.invalidCharacter c)
  | decimalRange {s : Str} : s ≠ [] → (∀ d ∈ s, Decimal d) → 4095 < positional 10 s →
    LexicalPossible (.decimalLiteralOutOfRange s)
  | binaryRange {s : Str} : s ≠ [] → (∀ d ∈ s, Binary d) → 4095 < wordBinary s → LexicalPossible (.binaryLiteralOutOfRange s)

/-- The tokens that can occur, at any location. -/
inductive TokenPossible [Target] : Token → Prop where
  | token {s : Str} {k : Loc → Token} {l : Loc} : Lexeme wordBinary s k → ¬ IsError k → TokenPossible (k l)
  | error {e : ScanError} {l : Loc} : LexicalPossible e → TokenPossible (.error e l)

/-- Where a token can be out of place. -/
inductive Spot where
  /-- The beginning of a statement. -/
  | statement
  /-- Behind the dot of a directive. -/
  | name
  /-- Behind the name of a directive, or behind a comma between its arguments. -/
  | argument
  /-- Behind a mnemonic, or behind a comma between operands. -/
  | operand

/-- The names of what is expected there. -/
def Spot.names : Spot → List Str
  | .statement => ["directive marker".toList, "identifier".toList]
  | .name => ["identifier".toList]
  | .argument => ["numeric literal".toList, "string literal".toList]
  | .operand => ["instruction field".toList]

/-- The tokens that can come there. -/
def Spot.Takes : Spot → Token → Prop
  | .statement, t => IsNewline t ∨ IsComment t ∨ (∃ l, t = .directiveMarker l) ∨ ∃ s l, t = .identifier s l
  | .name, t => ∃ s l, t = .identifier s l
  | .argument, t => IsNewline t ∨ (∃ n l, t = .numericLiteral n l) ∨ ∃ s l, t = .stringLiteral s l
  | .operand, t => IsNewline t ∨ IsComment t ∨ (∃ n l, t = .numericLiteral n l) ∨ ∃ s l, t = .identifier s l

/-- The syntax errors that can occur. A text can end at the beginning of a statement. -/
inductive SyntaxPossible [Target] : ParseError → Prop where
  | token {p : Spot} {t : Token} : TokenPossible t → ¬ p.Takes t → SyntaxPossible (.unexpectedToken p.names t)
  | ending {p : Spot} : p ≠ .statement → SyntaxPossible (.unexpectedEndOfFile p.names)

/-- What can be wrong with a directive of a source text. -/
inductive DirectivePossible : DirectiveError → Prop where
  | count {name : Str} {n : Nat} : name = "org".toList ∨ name = "equ".toList → n ≠ 1 →
    DirectivePossible (.incorrectNumberOfParameters name n 1 false)
  | noBytes : DirectivePossible (.incorrectNumberOfParameters "db".toList 0 1 true)
  | notNumber {name : Str} : name = "org".toList ∨ name = "equ".toList →
    DirectivePossible (.directiveRequiresOneNumericLiteral name)
  | noByte {n : Nat} : 255 < n → n ≤ 4095 → DirectivePossible (.allNumericParametersMustBeByteLiterals "db".toList n)
  | unknown {name : Str} : IsName name → ¬ SameLetters name "org".toList → ¬ SameLetters name "db".toList →
    ¬ SameLetters name "equ".toList → DirectivePossible (.unrecognizedDirective name)

/-- What can be wrong with an instruction of a source text. -/
inductive InstructionPossible : InstructionError → Prop where
  | label {name : Str} : IsName name → (∀ f, ¬ RegisterNamed name f) → InstructionPossible (.unableToResolveLabel name)
  | eight {n : Nat} : 255 < n → n ≤ 4095 → InstructionPossible (.expectingEightBitValue n)
  | four {n : Nat} : 15 < n → n ≤ 4095 → InstructionPossible (.expectingFourBitValue n)
  | none {m : Str} {fields : List Field} : IsName m → (∀ f ∈ fields, OperandFormed f) → (∀ row, ¬ Selects row m fields) →
    InstructionPossible (.noMatchingFormat m (if fields = [] then .none else some (shownOperands fields)))

/-- The errors of the assembler that can occur, at any location. Only `.db` is ever too large or passes the end of memory. -/
inductive SemanticPossible : SemanticError → Prop where
  | directive {l : Loc} {e : DirectiveError} : DirectivePossible e → SemanticPossible (.directiveInvalid l e)
  | large {l : Loc} {bytes : List U8} : 4096 ≤ bytes.length → SemanticPossible (.directiveTooLarge l (.db bytes))
  | overflow {l : Loc} {bytes : List U8} : 1 ≤ bytes.length → bytes.length ≤ 4095 →
    SemanticPossible (.directiveWouldOverflow l (.db bytes))
  | constant {l : Loc} : SemanticPossible (.constantWithoutLabel l)
  | label {l : Loc} {name : Str} : IsName name → SemanticPossible (.redefinitionOfLabel l name)
  | past {l : Loc} : SemanticPossible (.instructionWouldOverflow l)
  | instruction {l : Loc} {e : InstructionError} : InstructionPossible e → SemanticPossible (.assemblyFailed l e)

end C8S.Spec
