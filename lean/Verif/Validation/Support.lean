import Verif.Model.Main

/-
The unit tests of source_file_location.rs, token.rs, directive.rs, data_range.rs, assembler.rs and
ihex_writer.rs (all in /repo/src/assembler), replayed on the model. These are tests of the model's fidelity, not
property proofs: every input and expected value is copied from the Rust test of the name given.
-/

namespace C8S

/-! source_file_location.rs -/

/-- The text of a new location, `panic` when the constructor asserts. -/
private def shown (file : String) (line location length : Nat) : Run Str := do
  return (← Loc.new file.toList line location length).display

/-- `test_display_fmt_one_character`, `test_display_fmt_many_characters`, `test_display_fmt_empty_file_name`. -/
example : shown "test_file.s" 1 1 1 = .ret "test_file.s:1:1".toList := by decide +kernel
example : shown "test_file.s" 2 3 2 = .ret "test_file.s:2:3-4".toList := by decide +kernel
example : shown "test_file.s" 2 3 5 = .ret "test_file.s:2:3-7".toList := by decide +kernel
example : shown "" 1 1 1 = .ret ":1:1".toList := by decide +kernel
example : shown "" 1 2 3 = .ret ":1:2-4".toList := by decide +kernel

/-- `test_new_asserts_on_zero_line`, `_length`, `_location`. -/
example : Loc.new "test.s".toList 0 2 3 = .panic := by decide +kernel
example : Loc.new "test.s".toList 1 0 3 = .panic := by decide +kernel
example : Loc.new "test.s".toList 1 2 0 = .panic := by decide +kernel

/-! token.rs, `test_display_fmt` -/

private def at1 : Loc := ⟨"test_file.s".toList, 1, 1, 1⟩

example : (Token.singleLineComment "; Hello".toList at1).display = "single-line comment".toList := by decide +kernel
example : (Token.directiveMarker at1).display = "directive marker".toList := by decide +kernel
example : (Token.identifier "test_id".toList at1).display = "identifier (test_id)".toList := by decide +kernel
example : (Token.labelMarker at1).display = "label marker".toList := by decide +kernel
example : (Token.stringLiteral "Hello".toList at1).display = "string literal (\"Hello\")".toList := by
  decide +kernel
example : (Token.numericLiteral 12 at1).display = "numeric literal (12 / $C)".toList := by decide +kernel
example : (Token.comma at1).display = "comma".toList := by decide +kernel
example : (Token.newline at1).display = "newline".toList := by decide +kernel
example : (Token.error .invalidStringLiteral at1).display
    = ScanError.invalidStringLiteral.description ++ ".".toList := by decide +kernel

/-! directive.rs -/

open Directive in
/-- `test_error_display`. -/
example : (DirectiveError.incorrectNumberOfParameters DirectiveNames.org 0 1 false).display
    = "Incorrect number of parameters (0) for directive .org, expecting 1.".toList := by decide +kernel
example : (DirectiveError.incorrectNumberOfParameters DirectiveNames.org 2 1 false).display
    = "Incorrect number of parameters (2) for directive .org, expecting 1.".toList := by decide +kernel
example : (DirectiveError.incorrectNumberOfParameters DirectiveNames.org 0 1 true).display
    = "Incorrect number of parameters (0) for directive .org, expecting 1 or more.".toList := by decide +kernel
example : (DirectiveError.directiveRequiresOneNumericLiteral DirectiveNames.db).display
    = "Directive .db requires 1 numeric literal in the range $000-$FFF.".toList := by decide +kernel
example : (DirectiveError.directiveRequiresOneNumericLiteral DirectiveNames.equ).display
    = "Directive .equ requires 1 numeric literal in the range $000-$FFF.".toList := by decide +kernel
example : (DirectiveError.allNumericParametersMustBeByteLiterals DirectiveNames.org 0x100).display
    = "All numeric parameters to .org must be 1-byte literals ($100 > $FF).".toList := by decide +kernel
example : (DirectiveError.unrecognizedDirective "dw".toList).display
    = "Unrecognized directive '.dw'.".toList := by decide +kernel

private def directive (name : String) (parameters : List Literal) : Except DirectiveError Directive :=
  Directive.fromIdentifierAndParameters name.toList parameters

private def test : Literal := .string "TEST_STRING".toList

/-- `test_validate_directive_semantics_for_org`. -/
example : directive "org" [] = .error (.incorrectNumberOfParameters DirectiveNames.org 0 1 false) := by rfl
example : directive "org" [.numeric 1, .numeric 3]
    = .error (.incorrectNumberOfParameters DirectiveNames.org 2 1 false) := by rfl
example : directive "org" [.numeric 0x1000]
    = .error (.directiveRequiresOneNumericLiteral DirectiveNames.org) := by rfl
example : directive "org" [test] = .error (.directiveRequiresOneNumericLiteral DirectiveNames.org) := by rfl
example : directive "org" [.numeric 0xFFF] = .ok (.org 0xFFF) := by rfl
example : directive "org" [.numeric 0x000] = .ok (.org 0x000) := by rfl

/-- `test_validate_directive_semantics_for_db`. -/
example : directive "db" [] = .error (.incorrectNumberOfParameters DirectiveNames.db 0 1 true) := by rfl
example : directive "db" [.numeric 0x100]
    = .error (.allNumericParametersMustBeByteLiterals DirectiveNames.db 0x100) := by rfl
example : directive "db" [test]
    = .ok (.db [0x54, 0x45, 0x53, 0x54, 0x5F, 0x53, 0x54, 0x52, 0x49, 0x4E, 0x47]) := by rfl
example : directive "db" [.numeric 0xFF] = .ok (.db [0xFF]) := by rfl
example : directive "db" [.numeric 0x00] = .ok (.db [0x00]) := by rfl
example : directive "db" [test, .numeric 0x00]
    = .ok (.db [0x54, 0x45, 0x53, 0x54, 0x5F, 0x53, 0x54, 0x52, 0x49, 0x4E, 0x47, 0x00]) := by rfl

/-- `test_validate_directive_semantics_for_equ`. -/
example : directive "equ" [] = .error (.incorrectNumberOfParameters DirectiveNames.equ 0 1 false) := by rfl
example : directive "equ" [.numeric 1, .numeric 3]
    = .error (.incorrectNumberOfParameters DirectiveNames.equ 2 1 false) := by rfl
example : directive "equ" [.numeric 0x1000]
    = .error (.directiveRequiresOneNumericLiteral DirectiveNames.equ) := by rfl
example : directive "equ" [test] = .error (.directiveRequiresOneNumericLiteral DirectiveNames.equ) := by rfl
example : directive "equ" [.numeric 0xFFF] = .ok (.equ 0xFFF) := by rfl
example : directive "equ" [.numeric 0x000] = .ok (.equ 0x000) := by rfl

/-- `test_validate_directive_semantics_for_invalid_directive`. -/
example : directive "dw" [] = .error (.unrecognizedDirective "dw".toList) := by rfl
example : directive "dw" [.numeric 0x100] = .error (.unrecognizedDirective "dw".toList) := by rfl

/-- `test_size_of_directive_for_org`, `_db`, `_equ`. -/
example : (directive "org" [.numeric 0xFFF]).map Directive.size = .ok 0 := by rfl
example : (directive "db" [.numeric 0xFF]).map Directive.size = .ok 1 := by rfl
example : (directive "db" [test]).map Directive.size = .ok 11 := by rfl
example : (directive "db" [test, .numeric 0]).map Directive.size = .ok 12 := by rfl
example : (directive "equ" [.numeric 0xFFF]).map Directive.size = .ok 0 := by rfl

/-! data_range.rs -/

/-- Length, bytes remaining and address range, as the tests of data_range.rs read them. -/
private def facts (r : DataRange) : Run (Nat × Nat × U12 × U12) := do
  return (r.len, ← r.bytesRemaining, r.addressRange)

/-- `test_empty_ranges`. -/
example : facts (.new 0) = .ret (0, 4096, 0, 0) := by decide +kernel
example : facts (.new 0x800) = .ret (0, 2048, 0x800, 0x800) := by decide +kernel
example : facts (.new 0xFFF) = .ret (0, 1, 0xFFF, 0xFFF) := by decide +kernel

/-- `test_append_within_range`. -/
example : facts (.new 0x200) = .ret (0, 3584, 0x200, 0x200) := by decide +kernel
example : (DataRange.new 0x200).append [1] = .ret (true, ⟨0x200, [1]⟩) := by decide +kernel
example : facts ⟨0x200, [1]⟩ = .ret (1, 3583, 0x200, 0x201) := by decide +kernel
example : (DataRange.mk 0x200 [1]).append [2, 3] = .ret (true, ⟨0x200, [1, 2, 3]⟩) := by decide +kernel
example : facts ⟨0x200, [1, 2, 3]⟩ = .ret (3, 3581, 0x200, 0x203) := by decide +kernel

/-- `test_append_out_of_range`. -/
example : (DataRange.new 0xFFF).append [1] = .ret (true, ⟨0xFFF, [1]⟩) := by decide +kernel
example : facts ⟨0xFFF, [1]⟩ = .ret (1, 0, 0xFFF, 0x000) := by decide +kernel
example : (DataRange.mk 0xFFF [1]).append [1] = .ret (false, ⟨0xFFF, [1]⟩) := by decide +kernel

/-- `range_with_start_and_length` of the tests. -/
private def zeros (start length : Nat) : DataRange := ⟨BitVec.ofNat 12 start, List.replicate length 0⟩

private def crosses (a b : DataRange) : Bool × Bool := (a.intersects b, b.intersects a)

/-- `test_intersects`, cases 1 to 8. -/
example : crosses (zeros 0 5) (zeros 8 2) = (false, false) := by decide +kernel
example : crosses (zeros 0 5) (zeros 6 4) = (false, false) := by decide +kernel
example : crosses (zeros 0 5) (zeros 5 5) = (false, false) := by decide +kernel
example : crosses (zeros 0 7) (zeros 6 4) = (true, true) := by decide +kernel
example : crosses (zeros 0 10) (zeros 0 1) = (true, true) := by decide +kernel
example : crosses (zeros 0 10) (zeros 9 1) = (true, true) := by decide +kernel
example : crosses (zeros 0 10) (zeros 4 2) = (true, true) := by decide +kernel
example : crosses (zeros 0 10) (zeros 4 0) = (false, false) := by decide +kernel

private def rA := zeros 0 10
private def rB := zeros 0 3
private def rC := zeros 7 3
private def rD := zeros 2 6
private def rE := zeros 0 0

/-- `test_find_overlapping_ranges`. -/
example : findOverlappingRanges [] = [] := by decide +kernel
example : findOverlappingRanges [rA] = [] := by decide +kernel
example : findOverlappingRanges [rB] = [] := by decide +kernel
example : findOverlappingRanges [rC] = [] := by decide +kernel
example : findOverlappingRanges [rD] = [] := by decide +kernel
example : findOverlappingRanges [rE] = [] := by decide +kernel
example : findOverlappingRanges [rB, rC] = [] := by decide +kernel
example : findOverlappingRanges [rB, rE] = [] := by decide +kernel
example : findOverlappingRanges [rA, rA] = [(rA, rA)] := by decide +kernel
example : findOverlappingRanges [rA, rB] = [(rA, rB)] := by decide +kernel
example : findOverlappingRanges [rA, rC] = [(rA, rC)] := by decide +kernel
example : findOverlappingRanges [rA, rB, rE] = [(rA, rB)] := by decide +kernel
example : findOverlappingRanges [rA, rB, rC, rD, rE]
    = [(rA, rB), (rA, rC), (rA, rD), (rB, rD), (rC, rD)] := by decide +kernel

/-! assembler.rs -/

private def labelNode (seq : Nat) (name : String) : Node :=
  .label ⟨"-".toList, seq, 1, name.length⟩ name.toList

private def directiveNode (seq : Nat) (name : String) (args : List Literal) : Node :=
  .directive ⟨"-".toList, seq, 2, name.length⟩ name.toList args

private def instructionNode (seq : Nat) (name : String) (fields : List Field) : Node :=
  .instruction ⟨"-".toList, seq, 1, name.length⟩ name.toList fields

/-- The number of labels and the values of some. -/
private def looked (result : Except SemanticError LabelMap) (names : List String) : Option (Nat × List (Option U12)) :=
  match result with
  | .ok map => some (map.length, names.map (fun n => map.get n.toList))
  | .error _ => none

/-- The text of the error. -/
private def complaint (result : Except SemanticError LabelMap) : Option Str :=
  match result with
  | .ok _ => none
  | .error e => some e.display

/-- `test_define_labels`. -/
example : looked (defineLabels [
      directiveNode 1 "org" [.numeric 0x100], labelNode 2 "label1", directiveNode 3 "db" [.numeric 0xFF],
      labelNode 4 "label2", instructionNode 5 "trap" [], labelNode 6 "label3"]) ["label1", "label2", "label3"]
    = some (3, [some 0x100, some 0x101, some 0x103]) := by decide +kernel

/-- `test_define_constants`. -/
example : looked (defineLabels [
      directiveNode 1 "org" [.numeric 0x100], labelNode 2 "CONST_1", directiveNode 3 "equ" [.numeric 0xFFF],
      labelNode 4 "CONST_2", directiveNode 5 "equ" [.numeric 100], labelNode 6 "address_1"])
        ["CONST_1", "CONST_2", "address_1"]
    = some (3, [some 0xFFF, some 100, some 0x100]) := by decide +kernel

/-- `test_define_labels_does_semantic_analysis_on_org`, `_on_db`, `_on_equ`. -/
example : complaint (defineLabels [directiveNode 1 "org" []])
    = some "-:1:2-4: error: Incorrect number of parameters (0) for directive .org, expecting 1.".toList := by
  decide +kernel
example : complaint (defineLabels [directiveNode 1 "db" []])
    = some "-:1:2-3: error: Incorrect number of parameters (0) for directive .db, expecting 1 or more.".toList := by
  decide +kernel
example : complaint (defineLabels [directiveNode 1 "equ" []])
    = some "-:1:2-4: error: Incorrect number of parameters (0) for directive .equ, expecting 1.".toList := by
  decide +kernel

/-- `test_define_labels_fails_on_redefinition`. -/
example : complaint (defineLabels [labelNode 1 "L1", labelNode 2 "L1"])
    = some "-:2:1-2: error: Attempted re-definition of label 'L1'.".toList := by decide +kernel

/-! ihex_writer.rs -/

private def row1 : List U8 :=
  [0x21, 0x46, 0x01, 0x36, 0x01, 0x21, 0x47, 0x01, 0x36, 0x00, 0x7E, 0xFE, 0x09, 0xD2, 0x19, 0x01]
private def row2 : List U8 :=
  [0x21, 0x46, 0x01, 0x7E, 0x17, 0xC2, 0x00, 0x01, 0xFF, 0x5F, 0x16, 0x00, 0x21, 0x48, 0x01, 0x19]
private def row3 : List U8 :=
  [0x19, 0x4E, 0x79, 0x23, 0x46, 0x23, 0x96, 0x57, 0x78, 0x23, 0x9E, 0xDA, 0x3F, 0x01, 0xB2, 0xCA]
private def row4 : List U8 :=
  [0x3F, 0x01, 0x56, 0x70, 0x2B, 0x5E, 0x71, 0x2B, 0x72, 0x2B, 0x73, 0x21, 0x46, 0x01, 0x34, 0x21]

/-- `test_ihex_representation_of_data_ranges_no_ranges`. -/
example : ihexRepresentationOfDataRanges [] = .ret ":00000001FF\n".toList := by decide +kernel

/-- `test_ihex_representation_of_data_ranges_one_range`. -/
example : ihexRepresentationOfDataRanges [⟨0x100, row1 ++ row2 ++ row3 ++ row4⟩] = .ret (
    ":10010000214601360121470136007EFE09D2190140\n".toList
    ++ ":100110002146017E17C20001FF5F16002148011928\n".toList
    ++ ":10012000194E79234623965778239EDA3F01B2CAA7\n".toList
    ++ ":100130003F0156702B5E712B722B732146013421C7\n".toList
    ++ ":00000001FF\n".toList) := by decide +kernel

/-- `test_ihex_representation_of_data_ranges_adjacent_ranges`. -/
example : ihexRepresentationOfDataRanges [⟨0x100, row1⟩, ⟨0x110, row2⟩] = .ret (
    ":10010000214601360121470136007EFE09D2190140\n".toList
    ++ ":100110002146017E17C20001FF5F16002148011928\n".toList
    ++ ":00000001FF\n".toList) := by decide +kernel

/-- `test_ihex_representation_of_data_ranges_disjoint_ranges`. -/
example : ihexRepresentationOfDataRanges [⟨0x100, row1⟩, ⟨0x130, row4⟩] = .ret (
    ":10010000214601360121470136007EFE09D2190140\n".toList
    ++ ":100130003F0156702B5E712B722B732146013421C7\n".toList
    ++ ":00000001FF\n".toList) := by decide +kernel

/-- `test_ihex_representation_of_data_ranges_uneven_ranges`. -/
example : ihexRepresentationOfDataRanges
    [⟨0x100, row1.take 15⟩, ⟨0x130, row4 ++ [0x22]⟩, ⟨0x200, [0x3F]⟩] = .ret (
    ":0F010000214601360121470136007EFE09D21942\n".toList
    ++ ":100130003F0156702B5E712B722B732146013421C7\n".toList
    ++ ":01014000229C\n".toList
    ++ ":010200003FBE\n".toList
    ++ ":00000001FF\n".toList) := by decide +kernel

/-- `test_ihex_representation_of_data_ranges_panics_when_overlapping`. -/
example : ihexRepresentationOfDataRanges [⟨0x100, row1⟩, ⟨0x101, row4⟩] = .panic := by decide +kernel

end C8S
