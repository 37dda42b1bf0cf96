import Verif.Spec.Layout
import Verif.Spec.Lexical
import Verif.Spec.Grammar

/- What the messages of the tool say, and when this is the case. -/

namespace C8S.Spec

/-- A number in decimal. -/
def dec (n : Nat) : Str := Nat.toDigits 10 n

/-- A number in hexadecimal, with capital letters. -/
def hexa (n : Nat) : Str := (Nat.toDigits 16 n).map Char.toUpper

/-- How a location is shown: with the last column if it is more than one character. -/
def shownLoc (l : Loc) : Str :=
  say [l.fileName, ":".toList, dec l.line, ":".toList, dec l.location,
    if l.length = 1 then [] else say ["-".toList, dec (l.location + l.length - 1)]]

/-- The operands have a value: a number, or the value of a label of the program. -/
inductive HasOperand (nodes : List Node) (fields : List Field) : Nat → Prop where
  | number {v : U12} : .numericLiteral v ∈ fields → HasOperand nodes fields v.toNat
  | label {name : Str} {v : U12} : .identifier name ∈ fields → LabelValue nodes name v → HasOperand nodes fields v.toNat

/-- What is said of a statement of a program, by the location of the statement. Each message is listed with what must be
the case. -/
inductive Complaint (nodes : List Node) : Loc → Str → Prop where
  /-- The name is none of the three. -/
  | unknownDirective {loc : Loc} {name : Str} {args : List Literal} : .directive loc name args ∈ nodes →
    ¬ SameLetters name "org".toList → ¬ SameLetters name "db".toList → ¬ SameLetters name "equ".toList →
    Complaint nodes loc (say ["Unrecognized directive '.".toList, name, "'.".toList])
  /-- The number of arguments is the one shown, and not 1. -/
  | arguments {loc : Loc} {name canonical : Str} {args : List Literal} : .directive loc name args ∈ nodes →
    canonical = "org".toList ∨ canonical = "equ".toList → SameLetters name canonical → args.length ≠ 1 →
    Complaint nodes loc (say ["Incorrect number of parameters (".toList, dec args.length, ") for directive .".toList,
      canonical, ", expecting 1.".toList])
  /-- There is no argument. -/
  | noArgument {loc : Loc} {name : Str} : .directive loc name [] ∈ nodes → SameLetters name "db".toList →
    Complaint nodes loc "Incorrect number of parameters (0) for directive .db, expecting 1 or more.".toList
  /-- The one argument is not a number of the range. -/
  | notAddress {loc : Loc} {name canonical : Str} {arg : Literal} : .directive loc name [arg] ∈ nodes →
    canonical = "org".toList ∨ canonical = "equ".toList → SameLetters name canonical → (∀ n ≤ 0xFFF, arg ≠ .numeric n) →
    Complaint nodes loc (say ["Directive .".toList, canonical,
      " requires 1 numeric literal in the range $000-$FFF.".toList])
  /-- The value shown is that of an argument, and is above 255. -/
  | notByte {loc : Loc} {name : Str} {args : List Literal} {n : Nat} : .directive loc name args ∈ nodes →
    SameLetters name "db".toList → .numeric n ∈ args → 0xFF < n →
    Complaint nodes loc (say ["All numeric parameters to .db must be 1-byte literals ($".toList, hexa n,
      " > $FF).".toList])
  /-- The size shown is that of the directive, and is 4096 or more: the message is not quite right for 4096. -/
  | tooLarge {loc : Loc} {name : Str} {args : List Literal} {bytes : List U8} : .directive loc name args ∈ nodes →
    DirectiveMeans name args (.db bytes) → 4096 ≤ bytes.length →
    Complaint nodes loc (say ["Directive (.db [".toList, dec bytes.length, " bytes]) size ".toList, dec bytes.length,
      " exceeds 4096 bytes.".toList])
  /-- The size shown is that of the directive, and the address after it is above 4095. -/
  | overflow {pre post : List Node} {loc : Loc} {name : Str} {args : List Literal} {bytes : List U8} {a : Nat} :
    nodes = pre ++ .directive loc name args :: post → DirectiveMeans name args (.db bytes) → Reaches pre 0 a →
    0xFFF < a + bytes.length →
    Complaint nodes loc (say ["Directive (.db [".toList, dec bytes.length,
      " bytes]) would cause the 12-bit address counter to overflow.".toList])
  /-- The statement before it is not a label. -/
  | noLabel {pre post : List Node} {loc : Loc} {name : Str} {args : List Literal} :
    nodes = pre ++ .directive loc name args :: post → SameLetters name "equ".toList → ¬ EndsWithLabel pre →
    Complaint nodes loc "A constant must be defined immediately following a label name.".toList
  /-- A label of this name comes before it. -/
  | redefined {pre post : List Node} {loc loc' : Loc} {name : Str} : nodes = pre ++ .label loc name :: post →
    .label loc' name ∈ pre →
    Complaint nodes loc (say ["Attempted re-definition of label '".toList, name, "'.".toList])
  /-- The address after it is above 4095. -/
  | instructionOverflow {pre post : List Node} {loc : Loc} {m : Str} {fields : List Field} {a : Nat} :
    nodes = pre ++ .instruction loc m fields :: post → Reaches pre 0 a → 0xFFF < a + 2 →
    Complaint nodes loc "Instruction would cause address counter to overflow $FFF.".toList
  /-- The instruction uses this label, which is nowhere defined. -/
  | undefinedLabel {loc : Loc} {m name : Str} {fields : List Field} {row : Row} : .instruction loc m fields ∈ nodes →
    Selects row m fields → .identifier name ∈ fields → name ∉ labelNames nodes →
    Complaint nodes loc (say ["Unable to resolve label ".toList, name, ".".toList])
  /-- The value shown is that of an operand, and is above 255. -/
  | notEightBit {loc : Loc} {m : Str} {fields : List Field} {row : Row} {value : Nat} :
    .instruction loc m fields ∈ nodes → Selects row m fields → .nn ∈ row.slots → HasOperand nodes fields value →
    255 < value →
    Complaint nodes loc (say ["Found 12-bit numeric value $".toList, hexa value, ", expecting 8-bit value.".toList])
  /-- The value shown is that of an operand, and is above 15. -/
  | notFourBit {loc : Loc} {m : Str} {fields : List Field} {row : Row} {value : Nat} :
    .instruction loc m fields ∈ nodes → Selects row m fields → .n ∈ row.slots → HasOperand nodes fields value →
    15 < value →
    Complaint nodes loc (say ["Found 8/12-bit numeric value $".toList, hexa value, ", expecting 4-bit value.".toList])
  /-- No instruction of this name takes operands of these kinds. -/
  | noInstruction {loc : Loc} {m : Str} {fields : List Field} : .instruction loc m fields ∈ nodes →
    (∀ row, ¬ Selects row m fields) →
    Complaint nodes loc (say ["No matching instruction: ".toList, m,
      if fields = [] then [] else say [" ".toList, shownOperands fields], ".".toList])

/-- What is said of a text that begins with no token, or with one out of range. -/
inductive LexicalComplaint : Str → Str → Prop where
  | string {s : Str} : (∀ body rest, StringBody body → s ≠ body ++ '"' :: rest) →
    LexicalComplaint ('"' :: s) "Invalid quoted string literal.".toList
  /-- Also said of `#`. -/
  | hexadecimal {c : Char} {s : Str} : c = '$' ∨ c = '#' → (∀ d, s.head? = some d → ¬ Hexadecimal d) →
    LexicalComplaint (c :: s) "Invalid hexadecimal literal starting with ($).".toList
  | binary {s : Str} : (∀ d, s.head? = some d → ¬ Binary d) →
    LexicalComplaint ('%' :: s) "Invalid binary literal encountered.".toList
  | indirect {s : Str} : (∀ c rest, c = 'i' ∨ c = 'I' → s ≠ c :: ']' :: rest) →
    LexicalComplaint ('[' :: s) "Expected Index Register Indirect ([i]) not found.".toList
  | decimalRange {digits rest : Str} : digits ≠ [] → (∀ d ∈ digits, Decimal d) →
    (∀ d, rest.head? = some d → ¬ Decimal d) → 4095 < positional 10 digits →
    LexicalComplaint (digits ++ rest) (say ["Decimal literal ".toList, digits, " not in range (0...4095).".toList])
  | binaryRange {digits rest : Str} : digits ≠ [] → (∀ d ∈ digits, Binary d) →
    (∀ d, rest.head? = some d → ¬ Binary d) → 4095 < positional 2 digits →
    LexicalComplaint ('%' :: digits ++ rest) "Binary literal not in range 0...4095.".toList
  | character {c : Char} {s : Str} : ¬ Blank c → ¬ NameStart c → ¬ Decimal c → c ∉ "\n,:.;[\"$#%".toList →
    LexicalComplaint (c :: s) (say ["Invalid character '".toList, [c], "'.".toList])

/-- How a token is shown. -/
inductive ShownToken : Token → Str → Prop where
  | comment {s : Str} {l : Loc} : ShownToken (.singleLineComment s l) "single-line comment".toList
  | directiveMarker {l : Loc} : ShownToken (.directiveMarker l) "directive marker".toList
  | labelMarker {l : Loc} : ShownToken (.labelMarker l) "label marker".toList
  | comma {l : Loc} : ShownToken (.comma l) "comma".toList
  | newline {l : Loc} : ShownToken (.newline l) "newline".toList
  | identifier {name : Str} {l : Loc} : ShownToken (.identifier name l) (say ["identifier (".toList, name, ")".toList])
  | string {s : Str} {l : Loc} : ShownToken (.stringLiteral s l) (say ["string literal (\"".toList, s, "\")".toList])
  | number {n : Nat} {l : Loc} :
    ShownToken (.numericLiteral n l) (say ["numeric literal (".toList, dec n, " / $".toList, hexa n, ")".toList])

/-- A list of names of kinds of tokens. -/
def shownNames : List Str → Str
  | [] => []
  | [s] => s
  | s :: t :: r => say [s, ", ".toList, shownNames (t :: r)]

/-- How expectations are told. -/
def expecting (names : List Str) : Str :=
  if names.length = 1 then shownNames names else say ["one of: ".toList, shownNames names]

/-- The names told, and their order: of what begins a statement, of what a directive is called, of an argument of a
directive and of an operand. -/
def expectations : List (List Str) :=
  [["directive marker".toList, "identifier".toList], ["identifier".toList],
    ["numeric literal".toList, "string literal".toList], ["instruction field".toList]]

/-- The names are those of the kinds of tokens that may come after the tokens, but for newlines, comments, commas and
label markers. -/
def MayFollow (pre : List Token) (names : List Str) : Prop :=
  names ∈ expectations ∧ ∀ tok, ¬ Separates tok → (Completable (pre ++ [tok]) ↔ ∃ name ∈ names, Expected name tok)

/-- What is said of a file with the given text and tokens that is not a program. -/
inductive SyntaxReport (file text : Str) (tokens : List Token) : Str → Prop where
  /-- The token shown cannot come after the ones before it, which are the beginning of a program. -/
  | token {pre post : List Token} {t : Token} {shown : Str} {names : List Str} :
    tokens = pre ++ t :: post → Completable pre → ¬ Completable (pre ++ [t]) → ShownToken t shown →
    MayFollow pre names →
    SyntaxReport file text tokens (say [shownLoc t.location, ": error: Unexpected token found: ".toList, shown,
      ", expecting ".toList, expecting names, ".\n".toList])
  /-- The text at the location shown is in error. -/
  | lexical {pre : List Token} {e : ScanError} {l : Loc} {names : List Str} {skipped rest message : Str} :
    tokens = pre ++ [.error e l] → Completable pre → MayFollow pre names →
    text = skipped ++ rest → LexicalComplaint rest message → l.fileName = file → l.line = 1 + newlines skipped →
    l.location = 1 + sinceNewline skipped →
    SyntaxReport file text tokens (say [shownLoc l, ": error: Encountered syntax error: ".toList, message,
      "\n".toList, shownLoc l, ": error: Expecting ".toList, expecting names, ".\n".toList])
  /-- The file is the beginning of a program. -/
  | endOfFile {names : List Str} : Completable tokens → (¬ ∃ ns, Program tokens ns) → MayFollow tokens names →
    SyntaxReport file text tokens (say ["error: Unexpected end-of-file reached, expecting ".toList, expecting names,
      ".\n".toList])

end C8S.Spec
