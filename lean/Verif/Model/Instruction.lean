import Verif.Model.Parser
import Verif.Model.Opcode

/- Model of /repo/src/assembler/instruction.rs. -/

namespace C8S

/-- `HashMap<&str, U12>` of labels, as an association list (the most recent entry first; keys are never inserted twice
by the code) — assembler.rs:115-116, instruction.rs:69. -/
abbrev LabelMap := List (Str × U12)

/-- `HashMap::get` — instruction.rs:70-71. -/
def LabelMap.get (m : LabelMap) (label : Str) : Option U12 := m.lookup label

/-- `instruction::Error` — instruction.rs:19-25. -/
inductive InstructionError where
  | unableToResolveLabel (label : Str)
  | expectingEightBitValue (value : Nat)
  | expectingFourBitValue (value : Nat)
  | noMatchingFormat (mnemonic : Str) (fields : Option Str)
  deriving DecidableEq, Repr

/-- `Display for instruction::Error` — instruction.rs:41-58. -/
def InstructionError.display : InstructionError → Str
  | .unableToResolveLabel name => "Unable to resolve label ".toList ++ name ++ ".".toList
  | .expectingEightBitValue actual =>
    "Found 12-bit numeric value $".toList ++ showHexUpper actual ++ ", expecting 8-bit value.".toList
  | .expectingFourBitValue actual =>
    "Found 8/12-bit numeric value $".toList ++ showHexUpper actual ++ ", expecting 4-bit value.".toList
  | .noMatchingFormat mnemonic (some fields) =>
    "No matching instruction: ".toList ++ mnemonic ++ " ".toList ++ fields ++ ".".toList
  | .noMatchingFormat mnemonic none => "No matching instruction: ".toList ++ mnemonic ++ ".".toList

/-- `resolve_label_with_map` — instruction.rs:69-74. -/
def resolveLabelWithMap (label : Str) (labelMap : LabelMap) : Except InstructionError U12 :=
  match labelMap.get label with
  | some value => .ok value
  | none => .error (.unableToResolveLabel label)

/-- `numeric_literal_to_8_bit_field` — instruction.rs:81-85. `failable_into` answers `None` above 255. -/
def numericLiteralTo8BitField (literal : U12) : Except InstructionError U8 :=
  if literal.toNat ≤ 0xFF then .ok (literal.setWidth 8) else .error (.expectingEightBitValue literal.toNat)

/-- `numeric_literal_to_4_bit_field` — instruction.rs:92-100. -/
def numericLiteralTo4BitField (literal : U12) : Except InstructionError U8 :=
  if literal.toNat ≤ 0xFF then
    if literal.setWidth 8 < (16 : U8) then .ok (literal.setWidth 8)
    else .error (.expectingFourBitValue literal.toNat)
  else .error (.expectingFourBitValue literal.toNat)

namespace Instruction

/-- The `match` on mnemonics with no parameter — instruction.rs:121-128. -/
def match0 (mnemonic : Str) : Option Opcode :=
  if mnemonic = "nop".toList then some .NOP
  else if mnemonic = "cls".toList then some .CLS
  else if mnemonic = "ret".toList then some .RET
  else if mnemonic = "trap".toList then some .TRAP
  else if mnemonic = "trapret".toList then some .TRAPRET
  else none

/-- The `match` on mnemonics with one parameter — instruction.rs:133-172. Arms are grouped by mnemonic, in
source order within a group; arms of different groups exclude each other. -/
def match1 (mnemonic : Str) (f0 : Field) (labelMap : LabelMap) : Except InstructionError (Option Opcode) :=
  if mnemonic = "jp".toList then
    match f0 with
    | .numericLiteral target => .ok (some (.JP target))
    | .identifier label =>
      match resolveLabelWithMap label labelMap with
      | .ok address => .ok (some (.JP address))
      | .error e => .error e
    | _ => .ok none
  else if mnemonic = "call".toList then
    match f0 with
    | .numericLiteral target => .ok (some (.CALL target))
    | .identifier label =>
      match resolveLabelWithMap label labelMap with
      | .ok address => .ok (some (.CALL address))
      | .error e => .error e
    | _ => .ok none
  else if mnemonic = "shr".toList then
    match f0 with
    | .generalPurposeRegister x => .ok (some (.SHR x 0))
    | _ => .ok none
  else if mnemonic = "shl".toList then
    match f0 with
    | .generalPurposeRegister x => .ok (some (.SHL x 0))
    | _ => .ok none
  else if mnemonic = "skp".toList then
    match f0 with
    | .generalPurposeRegister x => .ok (some (.SE_K x))
    | _ => .ok none
  else if mnemonic = "sknp".toList then
    match f0 with
    | .generalPurposeRegister x => .ok (some (.SNE_K x))
    | _ => .ok none
  else .ok none

/-- An arm `Some(ctor { .., value: try!(numeric_literal_to_8_bit_field(value)) })` (e.g. instruction.rs:182-184). -/
def imm8Arm (ctor : U8 → Opcode) (value : U12) : Except InstructionError (Option Opcode) :=
  match numericLiteralTo8BitField value with
  | .ok v => .ok (some (ctor v))
  | .error e => .error e

/-- The same arm on a label (e.g. instruction.rs:187-190). -/
def imm8LabelArm (ctor : U8 → Opcode) (label : Str) (labelMap : LabelMap) :
    Except InstructionError (Option Opcode) :=
  match resolveLabelWithMap label labelMap with
  | .ok v => imm8Arm ctor v
  | .error e => .error e

/-- An arm taking a 12-bit label value (e.g. instruction.rs:263-266). -/
def imm12LabelArm (ctor : U12 → Opcode) (label : Str) (labelMap : LabelMap) :
    Except InstructionError (Option Opcode) :=
  match resolveLabelWithMap label labelMap with
  | .ok v => .ok (some (ctor v))
  | .error e => .error e

/-- The `match` on mnemonics with two parameters — instruction.rs:177-325. Arms are grouped by mnemonic. -/
def match2 (mnemonic : Str) (f0 f1 : Field) (labelMap : LabelMap) : Except InstructionError (Option Opcode) :=
  if mnemonic = "ld".toList then
    match f0, f1 with
    | .indexRegister, .indexRegisterIndirect => .ok (some .DEREF_I)
    | .generalPurposeRegister x, .numericLiteral value => imm8Arm (.LD_IMMEDIATE x) value
    | .generalPurposeRegister x, .identifier label => imm8LabelArm (.LD_IMMEDIATE x) label labelMap
    | .generalPurposeRegister x, .generalPurposeRegister y => .ok (some (.LD_REGISTER x y))
    | .indexRegister, .numericLiteral value => .ok (some (.LD_I value))
    | .indexRegister, .identifier label => imm12LabelArm .LD_I label labelMap
    | .generalPurposeRegister x, .delayTimer => .ok (some (.LD_X_DT x))
    | .generalPurposeRegister x, .keypadRegister => .ok (some (.LD_X_K x))
    | .delayTimer, .generalPurposeRegister x => .ok (some (.LD_DT_X x))
    | .soundTimer, .generalPurposeRegister x => .ok (some (.LD_ST_X x))
    | .sprite, .generalPurposeRegister x => .ok (some (.SPRITE_I x))
    | .bcd, .generalPurposeRegister x => .ok (some (.BCD_I x))
    | .indexRegisterIndirect, .generalPurposeRegister x => .ok (some (.SAVE_I x))
    | .generalPurposeRegister x, .indexRegisterIndirect => .ok (some (.RESTORE_I x))
    | _, _ => .ok none
  else if mnemonic = "se".toList then
    match f0, f1 with
    | .generalPurposeRegister x, .numericLiteral value => imm8Arm (.SE_IMMEDIATE x) value
    | .generalPurposeRegister x, .identifier label => imm8LabelArm (.SE_IMMEDIATE x) label labelMap
    | .generalPurposeRegister x, .generalPurposeRegister y => .ok (some (.SE_REGISTER x y))
    | _, _ => .ok none
  else if mnemonic = "sne".toList then
    match f0, f1 with
    | .generalPurposeRegister x, .numericLiteral value => imm8Arm (.SNE_IMMEDIATE x) value
    | .generalPurposeRegister x, .identifier label => imm8LabelArm (.SNE_IMMEDIATE x) label labelMap
    | .generalPurposeRegister x, .generalPurposeRegister y => .ok (some (.SNE_REGISTER x y))
    | _, _ => .ok none
  else if mnemonic = "add".toList then
    match f0, f1 with
    | .generalPurposeRegister x, .numericLiteral value => imm8Arm (.ADD_IMMEDIATE x) value
    | .generalPurposeRegister x, .identifier label => imm8LabelArm (.ADD_IMMEDIATE x) label labelMap
    | .generalPurposeRegister x, .generalPurposeRegister y => .ok (some (.ADD_REGISTER x y))
    | .indexRegister, .generalPurposeRegister x => .ok (some (.ADD_I_X x))
    | _, _ => .ok none
  else if mnemonic = "or".toList then
    match f0, f1 with
    | .generalPurposeRegister x, .generalPurposeRegister y => .ok (some (.OR x y))
    | _, _ => .ok none
  else if mnemonic = "and".toList then
    match f0, f1 with
    | .generalPurposeRegister x, .generalPurposeRegister y => .ok (some (.AND x y))
    | _, _ => .ok none
  else if mnemonic = "xor".toList then
    match f0, f1 with
    | .generalPurposeRegister x, .generalPurposeRegister y => .ok (some (.XOR x y))
    | _, _ => .ok none
  else if mnemonic = "sub".toList then
    match f0, f1 with
    | .generalPurposeRegister x, .generalPurposeRegister y => .ok (some (.SUB x y))
    | _, _ => .ok none
  else if mnemonic = "subn".toList then
    match f0, f1 with
    | .generalPurposeRegister x, .generalPurposeRegister y => .ok (some (.SUBN x y))
    | _, _ => .ok none
  else if mnemonic = "jp".toList then
    match f0, f1 with
    | .generalPurposeRegister r, .numericLiteral value => if r = 0 then .ok (some (.JP_V0 value)) else .ok none
    | .generalPurposeRegister r, .identifier label =>
      if r = 0 then imm12LabelArm .JP_V0 label labelMap else .ok none
    | _, _ => .ok none
  else if mnemonic = "rnd".toList then
    match f0, f1 with
    | .generalPurposeRegister x, .numericLiteral value => imm8Arm (.RND x) value
    | .generalPurposeRegister x, .identifier label => imm8LabelArm (.RND x) label labelMap
    | _, _ => .ok none
  else .ok none

/-- The two `if let`s on three parameters — instruction.rs:329-348. They exclude each other. -/
def match3 (mnemonic : Str) (f0 f1 f2 : Field) (labelMap : LabelMap) : Except InstructionError (Option Opcode) :=
  if mnemonic = "drw".toList then
    match f0, f1, f2 with
    | .generalPurposeRegister x, .generalPurposeRegister y, .numericLiteral value =>
      match numericLiteralTo4BitField value with
      | .ok v => .ok (some (.DRW x y v))
      | .error e => .error e
    | .generalPurposeRegister x, .generalPurposeRegister y, .identifier label =>
      match resolveLabelWithMap label labelMap with
      | .error e => .error e
      | .ok value =>
        match numericLiteralTo4BitField value with
        | .ok v => .ok (some (.DRW x y v))
        | .error e => .error e
    | _, _, _ => .ok none
  else .ok none

/-- The description of a failed match — instruction.rs:356-365. -/
def noMatchingFormat (inputMnemonic : Str) (fields : List Field) : InstructionError :=
  .noMatchingFormat inputMnemonic
    (if fields.length = 0 then none else some (joinWith ", ".toList (fields.map Field.display)))

/-- `Instruction::from_mnemonic_and_parameters` — instruction.rs:112-366. -/
def fromMnemonicAndParameters (inputMnemonic : Str) (fields : List Field) (labelMap : LabelMap) :
    Except InstructionError Opcode :=
  let mnemonic := toLowercase inputMnemonic
  let opcode : Except InstructionError (Option Opcode) :=
    match fields with
    | [] => .ok (match0 mnemonic)
    | [f0] => match1 mnemonic f0 labelMap
    | [f0, f1] => match2 mnemonic f0 f1 labelMap
    | [f0, f1, f2] => match3 mnemonic f0 f1 f2 labelMap
    | _ => .ok none
  match opcode with
  | .error e => .error e
  | .ok (some op) => .ok op
  | .ok none => .error (noMatchingFormat inputMnemonic fields)

/-- `Instruction::size` — instruction.rs:371. -/
def size (_ : Opcode) : Nat := 2

/-- `Instruction::into_vec` — instruction.rs:377-383. -/
def intoVec (op : Opcode) : Run (List U8) := do
  let instruction ← op.asInstruction
  return [((instruction &&& 0xFF00) >>> 8).setWidth 8, ((instruction &&& 0x00FF) >>> 0).setWidth 8]

end Instruction

end C8S
