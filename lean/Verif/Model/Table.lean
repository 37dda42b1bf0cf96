import Verif.Model.Assembler

/-
The assembler once more, with the labels in any table (`LabelTable`) in place of an association list. The code uses of
`HashMap` only `new`, `contains_key`, `insert` and `get`. `Buckets` is a hash table with any hash function, as `HashMap`
has one with a random seed.
-/

namespace C8S

/-- What the code uses of `HashMap<&str, U12>` — assembler.rs:116, 175, 178 and instruction.rs:70-71. -/
class LabelTable (M : Type) where
  /-- `HashMap::new` -/
  empty : M
  /-- `HashMap::contains_key` -/
  containsKey : M → Str → Bool
  /-- `HashMap::insert` -/
  insert : M → Str → U12 → M
  /-- `HashMap::get` -/
  get : M → Str → Option U12

/-- A hash table with chains, for any hash function and any way to grow. `std::collections::HashMap` (assembler.rs:10) is a
hash table with a random seed; its layout in memory is not this one. -/
structure Buckets (hash : Str → Nat) (grow : Nat → Nat) where
  /-- The number of chains, less one. -/
  size : Nat
  /-- How many entries there are. -/
  entries : Nat
  chains : Nat → List (Str × U12)

namespace Buckets

variable {hash : Str → Nat} {grow : Nat → Nat}

/-- The chain of a key among so many (and one more) chains — assembler.rs:116. -/
def slot (hash : Str → Nat) (size : Nat) (key : Str) : Nat := hash key % (size + 1)

/-- Puts an entry in front of its chain — assembler.rs:116, 177. -/
def put (hash : Str → Nat) (size : Nat) (chains : Nat → List (Str × U12)) (entry : Str × U12) : Nat → List (Str × U12) :=
  fun i => if i = slot hash size entry.1 then entry :: chains i else chains i

/-- Distributes all entries anew, those of later chains and of the ends of chains first — assembler.rs:116, 177. -/
def rehash (hash : Str → Nat) (size size' : Nat) (chains : Nat → List (Str × U12)) : Nat → List (Str × U12) :=
  ((List.range (size + 1)).flatMap chains).foldr (fun entry acc => put hash size' acc entry) fun _ => []

/-- Lookup in the chain of the key — instruction.rs:70-71. -/
def find (t : Buckets hash grow) (key : Str) : Option U12 := (t.chains (slot hash t.size key)).lookup key

/-- Insertion; an entry that is there is not removed, as the code inserts no key twice. The table grows if it has as
many entries as chains — assembler.rs:174-177. -/
def add (t : Buckets hash grow) (key : Str) (value : U12) : Buckets hash grow :=
  if t.size < t.entries then
    ⟨grow t.size, t.entries + 1, put hash (grow t.size) (rehash hash t.size (grow t.size) t.chains) (key, value)⟩
  else ⟨t.size, t.entries + 1, put hash t.size t.chains (key, value)⟩

/-- The table as a map of labels — assembler.rs:116, 174-177, instruction.rs:70-71. -/
instance : LabelTable (Buckets hash grow) where
  empty := ⟨0, 0, fun _ => []⟩
  containsKey t key := (t.find key).isSome
  insert := add
  get := find

end Buckets

/-- The association list of `Model/Instruction.lean`. -/
instance : LabelTable LabelMap where
  empty := []
  containsKey m key := (m.get key).isSome
  insert m key value := (key, value) :: m
  get := LabelMap.get

namespace Table

variable {M : Type}

/-- `resolve_label_with_map` — instruction.rs:69-74. -/
def resolveLabel [LabelTable M] (label : Str) (labelMap : M) : Except InstructionError U12 :=
  match LabelTable.get labelMap label with
  | some value => .ok value
  | none => .error (.unableToResolveLabel label)

open Instruction

/-- The `match` on mnemonics with one parameter — instruction.rs:133-172. Arms are grouped by mnemonic, in
source order within a group; arms of different groups exclude each other. -/
def match1 [LabelTable M] (mnemonic : Str) (f0 : Field) (labelMap : M) : Except InstructionError (Option Opcode) :=
  if mnemonic = "jp".toList then
    match f0 with
    | .numericLiteral target => .ok (some (.JP target))
    | .identifier label =>
      match resolveLabel label labelMap with
      | .ok address => .ok (some (.JP address))
      | .error e => .error e
    | _ => .ok none
  else if mnemonic = "call".toList then
    match f0 with
    | .numericLiteral target => .ok (some (.CALL target))
    | .identifier label =>
      match resolveLabel label labelMap with
      | .ok address => .ok (some (.CALL address))
      | .error e => .error e
    | _ => .ok none
  else if mnemonic = "shr".toList then
    match f0 with
    | .generalPurposeRegister x => .ok (some (.SHR x 0))
    | _ => .ok none
  else if mnemonic = "shl".toList then
    match f0 with
    | .generalPurposeRegister x => .ok (some (.SHL x 0))
    | _ => .ok none
  else if mnemonic = "skp".toList then
    match f0 with
    | .generalPurposeRegister x => .ok (some (.SE_K x))
    | _ => .ok none
  else if mnemonic = "sknp".toList then
    match f0 with
    | .generalPurposeRegister x => .ok (some (.SNE_K x))
    | _ => .ok none
  else .ok none

/-- The same arm on a label (e.g. instruction.rs:187-190). -/
def imm8LabelArm [LabelTable M] (ctor : U8 → Opcode) (label : Str) (labelMap : M) :
    Except InstructionError (Option Opcode) :=
  match resolveLabel label labelMap with
  | .ok v => imm8Arm ctor v
  | .error e => .error e

/-- An arm taking a 12-bit label value (e.g. instruction.rs:263-266). -/
def imm12LabelArm [LabelTable M] (ctor : U12 → Opcode) (label : Str) (labelMap : M) :
    Except InstructionError (Option Opcode) :=
  match resolveLabel label labelMap with
  | .ok v => .ok (some (ctor v))
  | .error e => .error e

/-- The `match` on mnemonics with two parameters — instruction.rs:177-325. Arms are grouped by mnemonic. -/
def match2 [LabelTable M] (mnemonic : Str) (f0 f1 : Field) (labelMap : M) : Except InstructionError (Option Opcode) :=
  if mnemonic = "ld".toList then
    match f0, f1 with
    | .indexRegister, .indexRegisterIndirect => .ok (some .DEREF_I)
    | .generalPurposeRegister x, .numericLiteral value => imm8Arm (.LD_IMMEDIATE x) value
    | .generalPurposeRegister x, .identifier label => imm8LabelArm (.LD_IMMEDIATE x) label labelMap
    | .generalPurposeRegister x, .generalPurposeRegister y => .ok (some (.LD_REGISTER x y))
    | .indexRegister, .numericLiteral value => .ok (some (.LD_I value))
    | .indexRegister, .identifier label => imm12LabelArm .LD_I label labelMap
    | .generalPurposeRegister x, .delayTimer => .ok (some (.LD_X_DT x))
    | .generalPurposeRegister x, .keypadRegister => .ok (some (.LD_X_K x))
    | .delayTimer, .generalPurposeRegister x => .ok (some (.LD_DT_X x))
    | .soundTimer, .generalPurposeRegister x => .ok (some (.LD_ST_X x))
    | .sprite, .generalPurposeRegister x => .ok (some (.SPRITE_I x))
    | .bcd, .generalPurposeRegister x => .ok (some (.BCD_I x))
    | .indexRegisterIndirect, .generalPurposeRegister x => .ok (some (.SAVE_I x))
    | .generalPurposeRegister x, .indexRegisterIndirect => .ok (some (.RESTORE_I x))
    | _, _ => .ok none
  else if mnemonic = "se".toList then
    match f0, f1 with
    | .generalPurposeRegister x, .numericLiteral value => imm8Arm (.SE_IMMEDIATE x) value
    | .generalPurposeRegister x, .identifier label => imm8LabelArm (.SE_IMMEDIATE x) label labelMap
    | .generalPurposeRegister x, .generalPurposeRegister y => .ok (some (.SE_REGISTER x y))
    | _, _ => .ok none
  else if mnemonic = "sne".toList then
    match f0, f1 with
    | .generalPurposeRegister x, .numericLiteral value => imm8Arm (.SNE_IMMEDIATE x) value
    | .generalPurposeRegister x, .identifier label => imm8LabelArm (.SNE_IMMEDIATE x) label labelMap
    | .generalPurposeRegister x, .generalPurposeRegister y => .ok (some (.SNE_REGISTER x y))
    | _, _ => .ok none
  else if mnemonic = "add".toList then
    match f0, f1 with
    | .generalPurposeRegister x, .numericLiteral value => imm8Arm (.ADD_IMMEDIATE x) value
    | .generalPurposeRegister x, .identifier label => imm8LabelArm (.ADD_IMMEDIATE x) label labelMap
    | .generalPurposeRegister x, .generalPurposeRegister y => .ok (some (.ADD_REGISTER x y))
    | .indexRegister, .generalPurposeRegister x => .ok (some (.ADD_I_X x))
    | _, _ => .ok none
  else if mnemonic = "or".toList then
    match f0, f1 with
    | .generalPurposeRegister x, .generalPurposeRegister y => .ok (some (.OR x y))
    | _, _ => .ok none
  else if mnemonic = "and".toList then
    match f0, f1 with
    | .generalPurposeRegister x, .generalPurposeRegister y => .ok (some (.AND x y))
    | _, _ => .ok none
  else if mnemonic = "xor".toList then
    match f0, f1 with
    | .generalPurposeRegister x, .generalPurposeRegister y => .ok (some (.XOR x y))
    | _, _ => .ok none
  else if mnemonic = "sub".toList then
    match f0, f1 with
    | .generalPurposeRegister x, .generalPurposeRegister y => .ok (some (.SUB x y))
    | _, _ => .ok none
  else if mnemonic = "subn".toList then
    match f0, f1 with
    | .generalPurposeRegister x, .generalPurposeRegister y => .ok (some (.SUBN x y))
    | _, _ => .ok none
  else if mnemonic = "jp".toList then
    match f0, f1 with
    | .generalPurposeRegister r, .numericLiteral value => if r = 0 then .ok (some (.JP_V0 value)) else .ok none
    | .generalPurposeRegister r, .identifier label =>
      if r = 0 then imm12LabelArm .JP_V0 label labelMap else .ok none
    | _, _ => .ok none
  else if mnemonic = "rnd".toList then
    match f0, f1 with
    | .generalPurposeRegister x, .numericLiteral value => imm8Arm (.RND x) value
    | .generalPurposeRegister x, .identifier label => imm8LabelArm (.RND x) label labelMap
    | _, _ => .ok none
  else .ok none

/-- The two `if let`s on three parameters — instruction.rs:329-348. They exclude each other. -/
def match3 [LabelTable M] (mnemonic : Str) (f0 f1 f2 : Field) (labelMap : M) : Except InstructionError (Option Opcode) :=
  if mnemonic = "drw".toList then
    match f0, f1, f2 with
    | .generalPurposeRegister x, .generalPurposeRegister y, .numericLiteral value =>
      match numericLiteralTo4BitField value with
      | .ok v => .ok (some (.DRW x y v))
      | .error e => .error e
    | .generalPurposeRegister x, .generalPurposeRegister y, .identifier label =>
      match resolveLabel label labelMap with
      | .error e => .error e
      | .ok value =>
        match numericLiteralTo4BitField value with
        | .ok v => .ok (some (.DRW x y v))
        | .error e => .error e
    | _, _, _ => .ok none
  else .ok none

/-- `Instruction::from_mnemonic_and_parameters` — instruction.rs:112-366. -/
def fromMnemonicAndParameters [LabelTable M] (inputMnemonic : Str) (fields : List Field) (labelMap : M) :
    Except InstructionError Opcode :=
  let mnemonic := toLowercase inputMnemonic
  let opcode : Except InstructionError (Option Opcode) :=
    match fields with
    | [] => .ok (match0 mnemonic)
    | [f0] => match1 mnemonic f0 labelMap
    | [f0, f1] => match2 mnemonic f0 f1 labelMap
    | [f0, f1, f2] => match3 mnemonic f0 f1 f2 labelMap
    | _ => .ok none
  match opcode with
  | .error e => .error e
  | .ok (some op) => .ok op
  | .ok none => .error (noMatchingFormat inputMnemonic fields)

/-- The loop of `define_labels` — assembler.rs:122-190. -/
def defineLabelsLoop [LabelTable M] : List Node → U12 → M → Except SemanticError M
  | [], _, labels => .ok labels
  | .directive loc identifier arguments :: rest, current, labels =>
    match Directive.fromIdentifierAndParameters identifier arguments with
    | .error reason => .error (.directiveInvalid loc reason)
    | .ok directive =>
      match failableInto12 directive.size with
      | none => .error (.directiveTooLarge loc directive)
      | some size =>
        match checkedAdd current size with
        | none => .error (.directiveWouldOverflow loc directive)
        | some current =>
          match directive with
          | .org address => defineLabelsLoop rest address labels
          | .db _ => defineLabelsLoop rest current labels
          | .equ _ => .error (.constantWithoutLabel loc)
  | .label loc identifier :: rest, current, labels =>
    let value := (peekConstant rest).getD current
    if LabelTable.containsKey labels identifier then .error (.redefinitionOfLabel loc identifier)
    else
      match rest, peekConstant rest with
      | _ :: rest', some _ => defineLabelsLoop rest' current (LabelTable.insert labels identifier value)
      | rest, _ => defineLabelsLoop rest current (LabelTable.insert labels identifier value)
  | .instruction loc _ _ :: rest, current, labels =>
    match checkedAdd current 2 with
    | none => .error (.instructionWouldOverflow loc)
    | some current => defineLabelsLoop rest current labels

/-- The loop of `emit_data_ranges` — assembler.rs:202-251. -/
def emitLoop [LabelTable M] : List Node → M → DataRange → List DataRange → Run (Except SemanticError (List DataRange))
  | [], _, current, ranges =>
    .ret (.ok (if current.len > 0 then ranges ++ [current] else ranges))
  | .directive _ identifier arguments :: rest, labels, current, ranges =>
    match Directive.fromIdentifierAndParameters identifier arguments with
    | .error _ => .panic
    | .ok (.org address) =>
      emitLoop rest labels (DataRange.new address) (if current.len > 0 then ranges ++ [current] else ranges)
    | .ok directive =>
      match appendAsserted current directive.intoVec with
      | .panic => .panic
      | .ret current => emitLoop rest labels current ranges
  | .instruction loc mnemonic fields :: rest, labels, current, ranges =>
    match fromMnemonicAndParameters mnemonic fields labels with
    | .error reason => .ret (.error (.assemblyFailed loc reason))
    | .ok instruction =>
      match Instruction.intoVec instruction with
      | .panic => .panic
      | .ret bytes =>
        match appendAsserted current bytes with
        | .panic => .panic
        | .ret current => emitLoop rest labels current ranges
  | .label _ _ :: rest, labels, current, ranges => emitLoop rest labels current ranges

/-- `assemble` — assembler.rs:115-119, 198-201 and 259-262. -/
def assemble (M : Type) [LabelTable M] (nodes : List Node) : Run (Except SemanticError (List DataRange)) :=
  match defineLabelsLoop nodes 0 (LabelTable.empty : M) with
  | .error e => .ret (.error e)
  | .ok labels => emitLoop nodes labels (DataRange.new 0) []

end Table

end C8S
