import Verif.Model.Errors
import Verif.Model.Assembler

/- Property C69: descriptions and causes of errors. -/

namespace C8S

/-- C69: the message of an error with a cause is its location followed by the message of the cause. -/
theorem C69_cause (e : SemanticError) (c : Cause) (h : e.cause = some c) :
    ∃ loc, e.display = Loc.display loc ++ ": error: ".toList ++ c.display := by
  cases e with
  | directiveInvalid loc r => cases h; exact ⟨loc, rfl⟩
  | assemblyFailed loc r => cases h; exact ⟨loc, rfl⟩
  | _ => cases h

example : ∃ loc, SemanticError.display (.directiveInvalid ⟨"f".toList, 1, 1, 1⟩ (.unrecognizedDirective "x".toList)) =
    Loc.display loc ++ ": error: ".toList ++ (Cause.directive (.unrecognizedDirective "x".toList)).display :=
  C69_cause _ _ rfl

/-- C69: an error has a cause exactly when it wraps an error of a directive or of an instruction. -/
theorem C69_has_cause (e : SemanticError) :
    (∃ c, e.cause = some c) ↔ (∃ loc r, e = .directiveInvalid loc r) ∨ ∃ loc r, e = .assemblyFailed loc r := by
  cases e <;> simp [SemanticError.cause]

example (l : Loc) : SemanticError.cause (.redefinitionOfLabel l "a".toList) = none ∧
    SemanticError.cause (.directiveInvalid l (.unrecognizedDirective "x".toList)) = some (.directive (.unrecognizedDirective "x".toList)) :=
  ⟨rfl, rfl⟩

/-- Two errors of the same kind. -/
inductive SameKind : SemanticError → SemanticError → Prop where
  | directiveInvalid {l l' r r'} : SameKind (.directiveInvalid l r) (.directiveInvalid l' r')
  | directiveTooLarge {l l' d d'} : SameKind (.directiveTooLarge l d) (.directiveTooLarge l' d')
  | directiveWouldOverflow {l l' d d'} : SameKind (.directiveWouldOverflow l d) (.directiveWouldOverflow l' d')
  | instructionWouldOverflow {l l'} : SameKind (.instructionWouldOverflow l) (.instructionWouldOverflow l')
  | redefinitionOfLabel {l l' n n'} : SameKind (.redefinitionOfLabel l n) (.redefinitionOfLabel l' n')
  | assemblyFailed {l l' r r'} : SameKind (.assemblyFailed l r) (.assemblyFailed l' r')
  | constantWithoutLabel {l l'} : SameKind (.constantWithoutLabel l) (.constantWithoutLabel l')

/-- C69: the description tells the kind of an error and nothing else. -/
theorem C69_kind (e e' : SemanticError) : e.description = e'.description ↔ SameKind e e' := by
  constructor
  · intro h
    have hl : ∀ e : SemanticError, e.description.length = match e with
        | .directiveInvalid _ _ => 17
        | .directiveTooLarge _ _ => 33
        | .directiveWouldOverflow _ _ => 60
        | .instructionWouldOverflow _ => 56
        | .redefinitionOfLabel _ _ => 32
        | .assemblyFailed _ _ => 30
        | .constantWithoutLabel _ => 61 := by
      intro e
      cases e <;> rfl
    have h := congrArg List.length h
    rw [hl, hl] at h
    cases e <;> cases e' <;> first | constructor | (simp only at h; omega)
  · intro h
    cases h <;> rfl

example (l m : Loc) : SemanticError.description (.redefinitionOfLabel l "a".toList) =
    SemanticError.description (.redefinitionOfLabel m "b".toList) := rfl

/-- Two errors of the parser of the same kind. -/
inductive SameParseKind : ParseError → ParseError → Prop where
  | unexpectedEndOfFile {e e'} : SameParseKind (.unexpectedEndOfFile e) (.unexpectedEndOfFile e')
  | unexpectedToken {e e' t t'} : SameParseKind (.unexpectedToken e t) (.unexpectedToken e' t')

/-- Two errors of a directive of the same kind. -/
inductive SameDirectiveKind : DirectiveError → DirectiveError → Prop where
  | parameters {a b c d a' b' c' d'} :
    SameDirectiveKind (.incorrectNumberOfParameters a b c d) (.incorrectNumberOfParameters a' b' c' d')
  | oneNumeric {n n'} : SameDirectiveKind (.directiveRequiresOneNumericLiteral n) (.directiveRequiresOneNumericLiteral n')
  | bytes {n v n' v'} :
    SameDirectiveKind (.allNumericParametersMustBeByteLiterals n v) (.allNumericParametersMustBeByteLiterals n' v')
  | unrecognized {n n'} : SameDirectiveKind (.unrecognizedDirective n) (.unrecognizedDirective n')

/-- Two errors of an instruction of the same kind. -/
inductive SameInstructionKind : InstructionError → InstructionError → Prop where
  | label {n n'} : SameInstructionKind (.unableToResolveLabel n) (.unableToResolveLabel n')
  | eightBit {v v'} : SameInstructionKind (.expectingEightBitValue v) (.expectingEightBitValue v')
  | fourBit {v v'} : SameInstructionKind (.expectingFourBitValue v) (.expectingFourBitValue v')
  | format {m f m' f'} : SameInstructionKind (.noMatchingFormat m f) (.noMatchingFormat m' f')

/-- C69: so do the descriptions of the errors of the parser, of directives and of instructions. -/
theorem C69_other_kinds :
    (∀ e e' : ParseError, e.description = e'.description ↔ SameParseKind e e') ∧
    (∀ e e' : DirectiveError, e.description = e'.description ↔ SameDirectiveKind e e') ∧
    ∀ e e' : InstructionError, e.description = e'.description ↔ SameInstructionKind e e' := by
  refine ⟨?_, ?_, ?_⟩
  · intro e e'
    constructor
    · intro h
      have hl : ∀ e : ParseError, e.description.length = match e with
          | .unexpectedEndOfFile _ => 30
          | .unexpectedToken _ _ => 22 := by
        intro e
        cases e <;> rfl
      have h := congrArg List.length h
      rw [hl, hl] at h
      cases e <;> cases e' <;> first | constructor | (simp only at h; omega)
    · intro h
      cases h <;> rfl
  · intro e e'
    constructor
    · intro h
      have hl : ∀ e : DirectiveError, e.description.length = match e with
          | .incorrectNumberOfParameters _ _ _ _ => 44
          | .directiveRequiresOneNumericLiteral _ => 38
          | .allNumericParametersMustBeByteLiterals _ _ => 48
          | .unrecognizedDirective _ => 22 := by
        intro e
        cases e <;> rfl
      have h := congrArg List.length h
      rw [hl, hl] at h
      cases e <;> cases e' <;> first | constructor | (simp only at h; omega)
    · intro h
      cases h <;> rfl
  · intro e e'
    constructor
    · intro h
      have hl : ∀ e : InstructionError, (e.description.length, e.description[0]?) = match e with
          | .unableToResolveLabel _ => (23, some 'U')
          | .expectingEightBitValue _ => (49, some 'F')
          | .expectingFourBitValue _ => (51, some 'F')
          | .noMatchingFormat _ _ => (23, some 'N') := by
        intro e
        cases e <;> rfl
      have h : (e.description.length, e.description[0]?) = (e'.description.length, e'.description[0]?) := by rw [h]
      rw [hl, hl] at h
      cases e <;> cases e' <;> first
        | constructor
        | (injection h with h1 h2; first | omega | (injection h2 with h2; exact absurd h2 (by decide)))
    · intro h
      cases h <;> rfl

example : InstructionError.description (.unableToResolveLabel "a".toList) = "Unable to resolve label".toList ∧
    ¬ SameInstructionKind (.unableToResolveLabel "a".toList) (.noMatchingFormat "a".toList none) :=
  ⟨rfl, fun h => by cases h⟩

/-- Two lexical errors of the same kind. -/
inductive SameScanKind : ScanError → ScanError → Prop where
  | same {e} : SameScanKind e e
  | decimal {s s'} : SameScanKind (.decimalLiteralOutOfRange s) (.decimalLiteralOutOfRange s')
  | binary {s s'} : SameScanKind (.binaryLiteralOutOfRange s) (.binaryLiteralOutOfRange s')
  | character {c c'} : SameScanKind (.invalidCharacter c) (.invalidCharacter c')

/-- C69: and those of lexical errors. -/
theorem C69_scan_kind (e e' : ScanError) : e.description = e'.description ↔ SameScanKind e e' := by
  constructor
  · intro h
    have hl : ∀ e : ScanError, (e.description.length, e.description[8]?) = match e with
        | .invalidStringLiteral => (29, some 'q')
        | .invalidHexadecimalLiteral => (45, some 'h')
        | .decimalLiteralOutOfRange _ => (37, some 'l')
        | .invalidDecimalLiteral => (35, some 'd')
        | .invalidBinaryLiteral => (34, some 'b')
        | .binaryLiteralOutOfRange _ => (36, some 'i')
        | .invalidIdentifier => (30, some 'i')
        | .expectedRegisterIndirect => (48, some ' ')
        | .invalidCharacter _ => (29, some 'c') := by
      intro e
      cases e <;> rfl
    have h : (e.description.length, e.description[8]?) = (e'.description.length, e'.description[8]?) := by rw [h]
    rw [hl, hl] at h
    cases e <;> cases e' <;> first
      | exact .same
      | exact .decimal
      | exact .binary
      | exact .character
      | (injection h with h1 h2; first | omega | (injection h2 with h2; exact absurd h2 (by decide)))
  · intro h
    cases h <;> rfl

example : ScanError.description (.invalidCharacter 'a') = ScanError.description (.invalidCharacter 'b') ∧
    ScanError.description (.invalidCharacter 'a') ≠ ScanError.description .invalidStringLiteral :=
  ⟨rfl, by decide⟩

example : SemanticError.cause (.assemblyFailed ⟨"f".toList, 1, 1, 1⟩ (.unableToResolveLabel "a".toList))
      = some (.instruction (.unableToResolveLabel "a".toList)) ∧
    SemanticError.display (.assemblyFailed ⟨"f".toList, 1, 1, 1⟩ (.unableToResolveLabel "a".toList))
      = "f:1:1: error: Unable to resolve label a.".toList := by decide +kernel

end C8S
