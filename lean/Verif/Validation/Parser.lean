import Verif.Model.Scanner
import Verif.Model.Parser

/-
The unit tests of /repo/src/assembler/parser.rs, replayed on the model. These are tests of the model's fidelity,
not property proofs: every input and expected value is copied from the Rust test of the name given.
-/

namespace C8S

/-- `SourceFileLocation::new("-", line, location, length)`. -/
private def loc (line location length : Nat) : Loc := ⟨"-".toList, line, location, length⟩

open DisplayNames

local instance {α β : Type} [DecidableEq α] [DecidableEq β] : DecidableEq (Except α β)
  | .ok a, .ok b => if h : a = b then isTrue (by rw [h]) else isFalse (fun e => h (Except.ok.inj e))
  | .error a, .error b => if h : a = b then isTrue (by rw [h]) else isFalse (fun e => h (Except.error.inj e))
  | .ok _, .error _ => isFalse (fun e => nomatch e)
  | .error _, .ok _ => isFalse (fun e => nomatch e)

private def bad : Token := .error .invalidStringLiteral (loc 1 1 1)

/-- `test_error_display_unexpected_eof`. -/
example : (ParseError.unexpectedEndOfFile [comma]).display
    = .ret "error: Unexpected end-of-file reached, expecting comma.".toList := by decide +kernel
example : (ParseError.unexpectedEndOfFile [comma, stringLiteral]).display
    = .ret "error: Unexpected end-of-file reached, expecting one of: comma, string literal.".toList := by
  decide +kernel

/-- `test_error_display_unexpected_eof_panics_on_zero_expectations`. -/
example : (ParseError.unexpectedEndOfFile []).display = .panic := by decide +kernel

/-- `test_error_display_unexpected_token_error`. -/
example : (ParseError.unexpectedToken [comma] bad).display
    = .ret ("-:1:1: error: Encountered syntax error: Invalid quoted string literal.\n".toList
      ++ "-:1:1: error: Expecting comma.".toList) := by decide +kernel
example : (ParseError.unexpectedToken [comma, stringLiteral] bad).display
    = .ret ("-:1:1: error: Encountered syntax error: Invalid quoted string literal.\n".toList
      ++ "-:1:1: error: Expecting one of: comma, string literal.".toList) := by decide +kernel

/-- `test_error_display_unexpected_token_error_panics_on_zero_expectations`. -/
example : (ParseError.unexpectedToken [] bad).display = .panic := by decide +kernel

/-- `test_error_display_unexpected_token`. -/
example : (ParseError.unexpectedToken [newline] (.comma (loc 1 1 1))).display
    = .ret "-:1:1: error: Unexpected token found: comma, expecting newline.".toList := by decide +kernel
example : (ParseError.unexpectedToken [newline, stringLiteral] (.comma (loc 1 1 1))).display
    = .ret "-:1:1: error: Unexpected token found: comma, expecting one of: newline, string literal.".toList := by
  decide +kernel

/-- `test_error_display_unexpected_token_panics_on_zero_expectations`. -/
example : (ParseError.unexpectedToken [] (.comma (loc 1 1 1))).display = .panic := by decide +kernel

/-- Runs one rule of the parser on a source text and keeps its answer, not the parser that is left. -/
private def run {α : Type} (rule : Parser → Run (Except ParseError (α × Parser))) (source : String) :
    Run (Except ParseError α) := do
  let tokens ← scan "-".toList source.toList
  match ← rule (Parser.new tokens) with
  | .ok (a, _) => return .ok a
  | .error e => return .error e

private def literals := run (fun p => Parser.parseLiteralList (p.remaining + 1) p [])
private def fields := run (fun p => Parser.parseFieldList (p.remaining + 1) p [])
private def directive := run Parser.parseDirective
private def label := run (fun p => .ret (Parser.parseLabel p))
private def instruction := run Parser.parseInstruction

/-- `test_parse_literal_list`. -/
example : literals "" = .ret (.error (.unexpectedEndOfFile [numericLiteral, stringLiteral])) := by decide +kernel
example : literals ",\n"
    = .ret (.error (.unexpectedToken [numericLiteral, stringLiteral] (.comma (loc 1 1 1)))) := by decide +kernel
example : literals "\n" = .ret (.ok []) := by decide +kernel
example : literals "1\n" = .ret (.ok [.numeric 1]) := by decide +kernel
example : literals "\"Hello\"\n" = .ret (.ok [.string "Hello".toList]) := by decide +kernel
example : literals "1,\n" = .ret (.ok [.numeric 1]) := by decide +kernel
example : literals "1,2,3\n" = .ret (.ok [.numeric 1, .numeric 2, .numeric 3]) := by decide +kernel
example : literals "1,\"Hello\",3\n" = .ret (.ok [.numeric 1, .string "Hello".toList, .numeric 3]) := by decide +kernel

/-- `test_parse_directive`. -/
example : directive ".org $100\n" = .ret (.ok (.directive (loc 1 2 3) "org".toList [.numeric 0x100])) := by decide +kernel
example : directive ".db \"Hello, World!\", $0\n"
    = .ret (.ok (.directive (loc 1 2 2) "db".toList [.string "Hello, World!".toList, .numeric 0])) := by decide +kernel
example : directive ".test\n" = .ret (.ok (.directive (loc 1 2 4) "test".toList [])) := by decide +kernel

/-- `test_parse_label`. -/
example : label "a:\n" = .ret (.ok (.label (loc 1 1 1) "a".toList)) := by decide +kernel

/-- `test_parse_field_list`. -/
example : fields "" = .ret (.error (.unexpectedEndOfFile [instructionField])) := by decide +kernel
example : fields ",\n" = .ret (.error (.unexpectedToken [instructionField] (.comma (loc 1 1 1)))) := by decide +kernel
example : fields "\"Hello\"\n"
    = .ret (.error (.unexpectedToken [instructionField] (.stringLiteral "Hello".toList (loc 1 1 7)))) := by decide +kernel
example : fields "\n" = .ret (.ok []) := by decide +kernel
example : fields "$00\n" = .ret (.ok [.numericLiteral 0]) := by decide +kernel
example : fields "v1\n" = .ret (.ok [.generalPurposeRegister 1]) := by decide +kernel
example : fields "dt\n" = .ret (.ok [.delayTimer]) := by decide +kernel
example : fields "st\n" = .ret (.ok [.soundTimer]) := by decide +kernel
example : fields "k\n" = .ret (.ok [.keypadRegister]) := by decide +kernel
example : fields "i\n" = .ret (.ok [.indexRegister]) := by decide +kernel
example : fields "[i]\n" = .ret (.ok [.indexRegisterIndirect]) := by decide +kernel
example : fields "LABEL\n" = .ret (.ok [.identifier "LABEL".toList]) := by decide +kernel
example : fields "b\n" = .ret (.ok [.bcd]) := by decide +kernel
example : fields "f\n" = .ret (.ok [.sprite]) := by decide +kernel
example : fields "$FF,\n" = .ret (.ok [.numericLiteral 255]) := by decide +kernel
example : fields "v0,vf\n" = .ret (.ok [.generalPurposeRegister 0, .generalPurposeRegister 15]) := by decide +kernel
example : fields "v1,v2,$ff\n"
    = .ret (.ok [.generalPurposeRegister 1, .generalPurposeRegister 2, .numericLiteral 255]) := by decide +kernel

/-- `test_parse_instruction`. -/
example : instruction "nop\n" = .ret (.ok (.instruction (loc 1 1 3) "nop".toList [])) := by decide +kernel
example : instruction "jp $002\n"
    = .ret (.ok (.instruction (loc 1 1 2) "jp".toList [.numericLiteral 2])) := by decide +kernel
example : instruction "drw v1, v2, $fe\n"
    = .ret (.ok (.instruction (loc 1 1 3) "drw".toList
      [.generalPurposeRegister 1, .generalPurposeRegister 2, .numericLiteral 254])) := by decide +kernel

/-- `test_parse_instruction_trailing_comment`. -/
example : instruction "nop;test_comment\n" = .ret (.ok (.instruction (loc 1 1 3) "nop".toList [])) := by decide +kernel
example : instruction "jp $002;test_comment\n"
    = .ret (.ok (.instruction (loc 1 1 2) "jp".toList [.numericLiteral 2])) := by decide +kernel
example : instruction "drw v1, v2, $fe, ;test_comment\n"
    = .ret (.ok (.instruction (loc 1 1 3) "drw".toList
      [.generalPurposeRegister 1, .generalPurposeRegister 2, .numericLiteral 254])) := by decide +kernel

end C8S
