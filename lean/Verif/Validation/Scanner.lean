import Verif.Model.Scanner

/-
The unit tests of /repo/src/assembler/scanner.rs, replayed on the model. These are tests of the model's fidelity, not
property proofs: every input and expected value is copied from the Rust test of the name given.
-/

namespace C8S

/-- `SourceFileLocation::new("-", line, location, length)`. -/
private def loc (line location length : Nat) : Loc := ⟨"-".toList, line, location, length⟩

/-- scanner.rs, `test_parse_12_bit_bin_str`. -/
example : parse12BitBinStr "".toList = .ok 0 := by rfl

/-- scanner.rs, `test_parse_12_bit_bin_str`. -/
example : parse12BitBinStr "...000.".toList = .ok 0 := by rfl

/-- scanner.rs, `test_parse_12_bit_bin_str`. -/
example : parse12BitBinStr "...0001".toList = .ok 1 := by rfl

/-- scanner.rs, `test_parse_12_bit_bin_str`. -/
example : parse12BitBinStr ".....111111111111".toList = .ok 4095 := by rfl

/-- scanner.rs, `test_parse_12_bit_bin_str`. -/
example : parse12BitBinStr "....1000000000000".toList = .error (.binaryLiteralOutOfRange "....1000000000000".toList) := by rfl

/-- scanner.rs, `test_parse_12_bit_bin_str`. -/
example : parse12BitBinStr "...11111111111111".toList = .error (.binaryLiteralOutOfRange "...11111111111111".toList) := by rfl

/-- scanner.rs, `test_parse_12_bit_bin_str`. -/
example : parse12BitBinStr "...1111111111111+".toList = .error .invalidBinaryLiteral := by rfl

/-- scanner.rs, `test_is_at_end_empty_string`. -/
example : scan "-".toList "".toList =
  .ret [] := by decide +kernel

/-- scanner.rs, `test_is_at_end_non_empty_string`. -/
example : (Scanner.new "-".toList "NON_EMPTY_STRING".toList).isAtEnd = false := by decide +kernel

/-- scanner.rs, `test_next_whitespace_only`. -/
example : scan "-".toList "    \t".toList =
  .ret [] := by decide +kernel

/-- scanner.rs, `test_directive_marker`. -/
example : scan "-".toList ".".toList =
  .ret [.directiveMarker (loc 1 1 1)] := by decide +kernel

/-- scanner.rs, `test_label_marker`. -/
example : scan "-".toList ":".toList =
  .ret [.labelMarker (loc 1 1 1)] := by decide +kernel

/-- scanner.rs, `test_comma`. -/
example : scan "-".toList ",".toList =
  .ret [.comma (loc 1 1 1)] := by decide +kernel

/-- scanner.rs, `test_newline`. -/
example : scan "-".toList "\n\n \n".toList =
  .ret [.newline (loc 1 1 1),
    .newline (loc 2 1 1),
    .newline (loc 3 2 1)] := by decide +kernel

/-- scanner.rs, `test_comment`. -/
example : scan "-".toList ";".toList =
  .ret [.singleLineComment ";".toList (loc 1 1 1)] := by decide +kernel

/-- scanner.rs, `test_comment`. -/
example : scan "-".toList ";\n".toList =
  .ret [.singleLineComment ";".toList (loc 1 1 1),
    .newline (loc 1 2 1)] := by decide +kernel

/-- scanner.rs, `test_comment`. -/
example : scan "-".toList "; Single-Line Comment\n".toList =
  .ret [.singleLineComment "; Single-Line Comment".toList (loc 1 1 21),
    .newline (loc 1 22 1)] := by decide +kernel

/-- scanner.rs, `test_identifier`. -/
example : scan "-".toList "_ _a a _A A _0 _aA _zZ9".toList =
  .ret [.identifier "_".toList (loc 1 1 1),
    .identifier "_a".toList (loc 1 3 2),
    .identifier "a".toList (loc 1 6 1),
    .identifier "_A".toList (loc 1 8 2),
    .identifier "A".toList (loc 1 11 1),
    .identifier "_0".toList (loc 1 13 2),
    .identifier "_aA".toList (loc 1 16 3),
    .identifier "_zZ9".toList (loc 1 20 4)] := by decide +kernel

/-- scanner.rs, `test_identifier`. -/
example : scan "-".toList "_&".toList =
  .ret [.identifier "_".toList (loc 1 1 1),
    .error (.invalidCharacter '&') (loc 1 2 1)] := by decide +kernel

/-- scanner.rs, `test_identifier`. -/
example : scan "-".toList "_$0".toList =
  .ret [.identifier "_".toList (loc 1 1 1),
    .numericLiteral 0 (loc 1 2 2)] := by decide +kernel

/-- scanner.rs, `test_index_register_indirect`. -/
example : (do return (← scan "-".toList "[i] [a]".toList).take 2 : Run (List Token)) =
  .ret [.identifier "[i]".toList (loc 1 1 3),
    .error .expectedRegisterIndirect (loc 1 5 1)] := by decide +kernel

/-- scanner.rs, `test_numeric_literal_hex`. -/
example : scan "-".toList "$0 $00 $000 $1 $F $FF $1FF $1_0 $".toList =
  .ret [.numericLiteral 0x0 (loc 1 1 2),
    .numericLiteral 0x00 (loc 1 4 3),
    .numericLiteral 0x000 (loc 1 8 4),
    .numericLiteral 0x1 (loc 1 13 2),
    .numericLiteral 0xF (loc 1 16 2),
    .numericLiteral 0xFF (loc 1 19 3),
    .numericLiteral 0x1FF (loc 1 23 4),
    .numericLiteral 0x1 (loc 1 28 2),
    .identifier "_0".toList (loc 1 30 2),
    .error .invalidHexadecimalLiteral (loc 1 33 1)] := by decide +kernel

/-- scanner.rs, `test_numeric_literal_alternate_leading_indicator`. -/
example : scan "-".toList "#0 #00 #000 #1 #F #FF #1FF #1_0 #".toList =
  .ret [.numericLiteral 0x0 (loc 1 1 2),
    .numericLiteral 0x00 (loc 1 4 3),
    .numericLiteral 0x000 (loc 1 8 4),
    .numericLiteral 0x1 (loc 1 13 2),
    .numericLiteral 0xF (loc 1 16 2),
    .numericLiteral 0xFF (loc 1 19 3),
    .numericLiteral 0x1FF (loc 1 23 4),
    .numericLiteral 0x1 (loc 1 28 2),
    .identifier "_0".toList (loc 1 30 2),
    .error .invalidHexadecimalLiteral (loc 1 33 1)] := by decide +kernel

/-- scanner.rs, `test_numeric_literal_dec`. -/
example : scan "-".toList "0 00 000 1 15 255 4095 1_0 4096".toList =
  .ret [.numericLiteral 0 (loc 1 1 1),
    .numericLiteral 0 (loc 1 3 2),
    .numericLiteral 0 (loc 1 6 3),
    .numericLiteral 1 (loc 1 10 1),
    .numericLiteral 15 (loc 1 12 2),
    .numericLiteral 255 (loc 1 15 3),
    .numericLiteral 4095 (loc 1 19 4),
    .numericLiteral 1 (loc 1 24 1),
    .identifier "_0".toList (loc 1 25 2),
    .error (.decimalLiteralOutOfRange "4096".toList) (loc 1 28 4)] := by decide +kernel

/-- scanner.rs, `test_numeric_literal_bin`. -/
example : scan "-".toList "%0 %.. %0.. %1 %1111 %11111111 %111111111 %1_0 %".toList =
  .ret [.numericLiteral 0x0 (loc 1 1 2),
    .numericLiteral 0x00 (loc 1 4 3),
    .numericLiteral 0x000 (loc 1 8 4),
    .numericLiteral 0x1 (loc 1 13 2),
    .numericLiteral 0xF (loc 1 16 5),
    .numericLiteral 0xFF (loc 1 22 9),
    .numericLiteral 0x1FF (loc 1 32 10),
    .numericLiteral 0x1 (loc 1 43 2),
    .identifier "_0".toList (loc 1 45 2),
    .error .invalidBinaryLiteral (loc 1 48 1)] := by decide +kernel

/-- scanner.rs, `test_string_literal`. -/
example : scan "-".toList "\"\" \"a\" \"😊😞\" \"123\" \"end-of-line".toList =
  .ret [.stringLiteral "".toList (loc 1 1 2),
    .stringLiteral "a".toList (loc 1 4 3),
    .stringLiteral "😊😞".toList (loc 1 8 4),
    .stringLiteral "123".toList (loc 1 13 5),
    .error .invalidStringLiteral (loc 1 19 1)] := by decide +kernel

/-- scanner.rs, `test_string_literal_multiline`. -/
example : scan "-".toList "\"Hello 😊\n🐳 World\"".toList =
  .ret [.stringLiteral "Hello 😊\n🐳 World".toList (loc 1 1 9)] := by decide +kernel

end C8S
