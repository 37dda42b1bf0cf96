import Verif.Model.Assembler

/- Model of the implementations of `std::error::Error` (the description of a scanner error is in `Token.lean`) and of
`Display` for `Opcode`. -/

namespace C8S

/-- `description` of `parser::Error` — parser.rs:34-39. -/
def ParseError.description : ParseError → Str
  | .unexpectedEndOfFile _ => "Unexpected end-of-file reached".toList
  | .unexpectedToken _ _ => "Unexpected token found".toList

/-- `description` of `directive::Error` — directive.rs:33-40. -/
def DirectiveError.description : DirectiveError → Str
  | .incorrectNumberOfParameters _ _ _ _ => "Incorrect number of parameters for directive".toList
  | .directiveRequiresOneNumericLiteral _ => "Directive requires one numeric literal".toList
  | .allNumericParametersMustBeByteLiterals _ _ => "All numeric parameters must by one-byte literals".toList
  | .unrecognizedDirective _ => "Unrecognized directive".toList

/-- `description` of `instruction::Error` — instruction.rs:31-38. -/
def InstructionError.description : InstructionError → Str
  | .unableToResolveLabel _ => "Unable to resolve label".toList
  | .expectingEightBitValue _ => "Found 12-bit numeric value, expecting 8-bit value".toList
  | .expectingFourBitValue _ => "Found 8/12-bit numeric value, expecting 4-bit value".toList
  | .noMatchingFormat _ _ => "No matching instruction".toList

/-- `description` of `SemanticError` — assembler.rs:56-66. -/
def SemanticError.description : SemanticError → Str
  | .directiveInvalid _ _ => "Directive invalid".toList
  | .directiveTooLarge _ _ => "Directive size exceeds 4096 bytes".toList
  | .directiveWouldOverflow _ _ => "Directive would cause the 12-bit address counter to overflow".toList
  | .instructionWouldOverflow _ => "Instruction would cause address counter to overflow $FFF".toList
  | .redefinitionOfLabel _ _ => "Attempted re-definition of label".toList
  | .assemblyFailed _ _ => "Unable to assemble instruction".toList
  | .constantWithoutLabel _ => "A constant must be defined immediately following a label name".toList

/-- `Option<&error::Error>` as answered by `cause`: the trait object is one of two types — assembler.rs:68-78. -/
inductive Cause where
  | directive (e : DirectiveError)
  | instruction (e : InstructionError)
  deriving DecidableEq, Repr

/-- `Display` of the trait object — directive.rs:46-59, instruction.rs:44-57. -/
def Cause.display : Cause → Str
  | .directive e => e.display
  | .instruction e => e.display

/-- `cause` of `SemanticError` — assembler.rs:69-78. -/
def SemanticError.cause : SemanticError → Option Cause
  | .directiveInvalid _ e => some (.directive e)
  | .assemblyFailed _ e => some (.instruction e)
  | _ => none

end C8S
