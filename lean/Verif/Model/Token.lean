import Verif.Model.Basic

namespace C8S

/-- `SourceFileLocation` — /repo/src/assembler/source_file_location.rs:12-22. -/
structure Loc where
  fileName : Str
  line : Nat
  location : Nat
  length : Nat
  deriving DecidableEq, Repr

/-- `SourceFileLocation::new` — source_file_location.rs:41-49 (asserts that all three numbers are positive). -/
def Loc.new (fileName : Str) (line location length : Nat) : Run Loc :=
  if line > 0 ∧ location > 0 ∧ length > 0 then .ret ⟨fileName, line, location, length⟩ else .panic

/-- `Display for SourceFileLocation` — source_file_location.rs:24-31. -/
def Loc.display (l : Loc) : Str :=
  if l.length = 1 then
    l.fileName ++ ":".toList ++ showDec l.line ++ ":".toList ++ showDec l.location
  else
    l.fileName ++ ":".toList ++ showDec l.line ++ ":".toList ++ showDec l.location
      ++ "-".toList ++ showDec (l.location + l.length - 1)

/-- `scanner::Error` — /repo/src/assembler/scanner.rs:18-38. -/
inductive ScanError where
  | invalidStringLiteral
  | invalidHexadecimalLiteral
  | decimalLiteralOutOfRange (literal : Str)
  | invalidDecimalLiteral
  | invalidBinaryLiteral
  | binaryLiteralOutOfRange (literal : Str)
  | invalidIdentifier
  | expectedRegisterIndirect
  | invalidCharacter (c : Char)
  deriving DecidableEq, Repr

/-- `description` of `scanner::Error` — scanner.rs:44-56. -/
def ScanError.description : ScanError → Str
  | .invalidStringLiteral => "Invalid quoted string literal".toList
  | .invalidHexadecimalLiteral => "Invalid hexadecimal literal starting with ($)".toList
  | .decimalLiteralOutOfRange _ => "Decimal literal not in range 0...4095".toList
  | .invalidDecimalLiteral => "Invalid decimal literal encountered".toList
  | .invalidBinaryLiteral => "Invalid binary literal encountered".toList
  | .binaryLiteralOutOfRange _ => "Binary literal not in range 0...4095".toList
  | .invalidIdentifier => "Invalid identifier encountered".toList
  | .expectedRegisterIndirect => "Expected Index Register Indirect ([i]) not found".toList
  | .invalidCharacter _ => "Invalid character encountered".toList

/-- `Display for scanner::Error` — scanner.rs:59-72. -/
def ScanError.display : ScanError → Str
  | .decimalLiteralOutOfRange literal =>
    "Decimal literal ".toList ++ literal ++ " not in range (0...4095).".toList
  | .invalidCharacter c => "Invalid character '".toList ++ [c] ++ "'.".toList
  | e => e.description ++ ".".toList

/-- `Token` — /repo/src/assembler/token.rs:15-35. -/
inductive Token where
  | singleLineComment (text : Str) (loc : Loc)
  | directiveMarker (loc : Loc)
  | identifier (name : Str) (loc : Loc)
  | labelMarker (loc : Loc)
  | stringLiteral (body : Str) (loc : Loc)
  | numericLiteral (value : Nat) (loc : Loc)
  | comma (loc : Loc)
  | newline (loc : Loc)
  | error (reason : ScanError) (loc : Loc)
  deriving DecidableEq, Repr

/-- `Token::location` — token.rs:41-53. -/
def Token.location : Token → Loc
  | .singleLineComment _ loc => loc
  | .directiveMarker loc => loc
  | .identifier _ loc => loc
  | .labelMarker loc => loc
  | .stringLiteral _ loc => loc
  | .numericLiteral _ loc => loc
  | .comma loc => loc
  | .newline loc => loc
  | .error _ loc => loc

/-! `display_names` — token.rs:81-91. -/
namespace DisplayNames
/-- `display_names::SINGLE_LINE_COMMENT` — token.rs:82. -/
def singleLineComment : Str := "single-line comment".toList
/-- `display_names::DIRECTIVE_MARKER` — token.rs:83. -/
def directiveMarker : Str := "directive marker".toList
/-- `display_names::IDENTIFIER` — token.rs:84. -/
def identifier : Str := "identifier".toList
/-- `display_names::LABEL_MARKER` — token.rs:85. -/
def labelMarker : Str := "label marker".toList
/-- `display_names::STRING_LITERAL` — token.rs:86. -/
def stringLiteral : Str := "string literal".toList
/-- `display_names::NUMERIC_LITERAL` — token.rs:87. -/
def numericLiteral : Str := "numeric literal".toList
/-- `display_names::COMMA` — token.rs:88. -/
def comma : Str := "comma".toList
/-- `display_names::NEWLINE` — token.rs:89. -/
def newline : Str := "newline".toList
/-- `display_names::INSTRUCTION_FIELD` — token.rs:90. -/
def instructionField : Str := "instruction field".toList
end DisplayNames

/-- `Display for Token` — token.rs:56-76. -/
def Token.display : Token → Str
  | .singleLineComment _ _ => DisplayNames.singleLineComment
  | .directiveMarker _ => DisplayNames.directiveMarker
  | .labelMarker _ => DisplayNames.labelMarker
  | .comma _ => DisplayNames.comma
  | .newline _ => DisplayNames.newline
  | .identifier value _ => DisplayNames.identifier ++ " (".toList ++ value ++ ")".toList
  | .stringLiteral value _ => DisplayNames.stringLiteral ++ " (\"".toList ++ value ++ "\")".toList
  | .numericLiteral value _ =>
    DisplayNames.numericLiteral ++ " (".toList ++ showDec value ++ " / $".toList ++ showHexUpper value ++ ")".toList
  | .error reason _ => reason.display

end C8S
