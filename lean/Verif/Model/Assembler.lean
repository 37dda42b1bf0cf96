import Verif.Model.Directive
import Verif.Model.Instruction
import Verif.Model.DataRange

/- Model of /repo/src/assembler/assembler.rs. -/

namespace C8S

/-- `SemanticError` — assembler.rs:33-49. -/
inductive SemanticError where
  | directiveInvalid (loc : Loc) (reason : DirectiveError)
  | directiveTooLarge (loc : Loc) (directive : Directive)
  | directiveWouldOverflow (loc : Loc) (directive : Directive)
  | instructionWouldOverflow (loc : Loc)
  | redefinitionOfLabel (loc : Loc) (label : Str)
  | assemblyFailed (loc : Loc) (reason : InstructionError)
  | constantWithoutLabel (loc : Loc)
  deriving DecidableEq, Repr

/-- `Display for SemanticError` (with `description`) — assembler.rs:56-66 and 82-103. -/
def SemanticError.display : SemanticError → Str
  | .directiveInvalid loc reason => loc.display ++ ": error: ".toList ++ reason.display
  | .directiveTooLarge loc directive =>
    loc.display ++ ": error: Directive (".toList ++ directive.display ++ ") size ".toList
      ++ showDec directive.size ++ " exceeds 4096 bytes.".toList
  | .directiveWouldOverflow loc directive =>
    loc.display ++ ": error: Directive (".toList ++ directive.display
      ++ ") would cause the 12-bit address counter to overflow.".toList
  | .redefinitionOfLabel loc label =>
    loc.display ++ ": error: Attempted re-definition of label '".toList ++ label ++ "'.".toList
  | .instructionWouldOverflow loc =>
    loc.display ++ ": error: ".toList ++ "Instruction would cause address counter to overflow $FFF".toList
      ++ ".".toList
  | .assemblyFailed loc reason => loc.display ++ ": error: ".toList ++ reason.display
  | .constantWithoutLabel loc =>
    loc.display ++ ": error: ".toList ++ "A constant must be defined immediately following a label name".toList
      ++ ".".toList

/-- `U12::checked_add` (crate `twelve_bit`): `None` when the sum exceeds $FFF — assembler.rs:143-149, 184-189. -/
def checkedAdd (a b : U12) : Option U12 :=
  if a.toNat + b.toNat ≤ 0xFFF then some (BitVec.ofNat 12 (a.toNat + b.toNat)) else none

/-- `usize::failable_into::<U12>` (crate `twelve_bit`): `None` above $FFF — assembler.rs:135-141. -/
def failableInto12 (n : Nat) : Option U12 := if n ≤ 0xFFF then some (BitVec.ofNat 12 n) else none

/-- The peek of `define_labels` — assembler.rs:165-171: the constant if the following node is a valid `.equ`. -/
def peekConstant : List Node → Option U12
  | .directive _ identifier arguments :: _ =>
    match Directive.fromIdentifierAndParameters identifier arguments with
    | .ok (.equ constant) => some constant
    | _ => none
  | _ => none

/-- The loop of `define_labels` — assembler.rs:122-190. The peekable iterator is the list of nodes left. -/
def defineLabelsLoop : List Node → U12 → LabelMap → Except SemanticError LabelMap
  | [], _, labels => .ok labels
  | .directive loc identifier arguments :: rest, current, labels =>
    match Directive.fromIdentifierAndParameters identifier arguments with
    | .error reason => .error (.directiveInvalid loc reason)
    | .ok directive =>
      match failableInto12 directive.size with
      | none => .error (.directiveTooLarge loc directive)
      | some size =>
        match checkedAdd current size with
        | none => .error (.directiveWouldOverflow loc directive)
        | some current =>
          match directive with
          | .org address => defineLabelsLoop rest address labels
          | .db _ => defineLabelsLoop rest current labels
          | .equ _ => .error (.constantWithoutLabel loc)
  | .label loc identifier :: rest, current, labels =>
    let value := (peekConstant rest).getD current
    if (labels.get identifier).isSome then .error (.redefinitionOfLabel loc identifier)
    else
      match rest, peekConstant rest with
      | _ :: rest', some _ => defineLabelsLoop rest' current ((identifier, value) :: labels)
      | rest, _ => defineLabelsLoop rest current ((identifier, value) :: labels)
  | .instruction loc _ _ :: rest, current, labels =>
    match checkedAdd current 2 with
    | none => .error (.instructionWouldOverflow loc)
    | some current => defineLabelsLoop rest current labels

/-- `define_labels` — assembler.rs:115-194. -/
def defineLabels (nodes : List Node) : Except SemanticError LabelMap := defineLabelsLoop nodes 0 []

/-- `assert!(current_range.append(&bytes))` — assembler.rs:220 and 236. -/
def appendAsserted (range : DataRange) (bytes : List U8) : Run DataRange :=
  match range.append bytes with
  | .ret (true, range) => .ret range
  | _ => .panic

/-- The loop of `emit_data_ranges` — assembler.rs:202-251. -/
def emitLoop : List Node → LabelMap → DataRange → List DataRange → Run (Except SemanticError (List DataRange))
  | [], _, current, ranges =>
    .ret (.ok (if current.len > 0 then ranges ++ [current] else ranges))
  | .directive _ identifier arguments :: rest, labels, current, ranges =>
    match Directive.fromIdentifierAndParameters identifier arguments with
    | .error _ => .panic
    | .ok (.org address) =>
      emitLoop rest labels (DataRange.new address) (if current.len > 0 then ranges ++ [current] else ranges)
    | .ok directive =>
      match appendAsserted current directive.intoVec with
      | .panic => .panic
      | .ret current => emitLoop rest labels current ranges
  | .instruction loc mnemonic fields :: rest, labels, current, ranges =>
    match Instruction.fromMnemonicAndParameters mnemonic fields labels with
    | .error reason => .ret (.error (.assemblyFailed loc reason))
    | .ok instruction =>
      match Instruction.intoVec instruction with
      | .panic => .panic
      | .ret bytes =>
        match appendAsserted current bytes with
        | .panic => .panic
        | .ret current => emitLoop rest labels current ranges
  | .label _ _ :: rest, labels, current, ranges => emitLoop rest labels current ranges

/-- `emit_data_ranges` — assembler.rs:198-252. -/
def emitDataRanges (nodes : List Node) (labels : LabelMap) : Run (Except SemanticError (List DataRange)) :=
  emitLoop nodes labels (DataRange.new 0) []

/-- `assemble` — assembler.rs:259-262. -/
def assemble (nodes : List Node) : Run (Except SemanticError (List DataRange)) :=
  match defineLabels nodes with
  | .error e => .ret (.error e)
  | .ok labels => emitDataRanges nodes labels

end C8S
