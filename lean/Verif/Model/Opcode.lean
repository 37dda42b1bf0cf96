import Verif.Model.Basic

/- Model of /repo/src/assembler/opcode.rs. -/

namespace C8S

/-- `Opcode` — opcode.rs:16-55. -/
inductive Opcode where
  | NOP
  | CLS
  | RET
  | DEREF_I
  | TRAP
  | TRAPRET
  | JP (target : U12)
  | CALL (target : U12)
  | SE_IMMEDIATE (x value : U8)
  | SNE_IMMEDIATE (x value : U8)
  | SE_REGISTER (x y : U8)
  | SNE_REGISTER (x y : U8)
  | LD_IMMEDIATE (x value : U8)
  | ADD_IMMEDIATE (x value : U8)
  | LD_REGISTER (x y : U8)
  | OR (x y : U8)
  | AND (x y : U8)
  | XOR (x y : U8)
  | ADD_REGISTER (x y : U8)
  | SUB (x y : U8)
  | SHR (x y : U8)
  | SUBN (x y : U8)
  | SHL (x y : U8)
  | LD_I (value : U12)
  | JP_V0 (value : U12)
  | RND (x mask : U8)
  | DRW (x y bytes : U8)
  | SE_K (x : U8)
  | SNE_K (x : U8)
  | LD_X_DT (x : U8)
  | LD_X_K (x : U8)
  | LD_DT_X (x : U8)
  | LD_ST_X (x : U8)
  | ADD_I_X (x : U8)
  | SPRITE_I (x : U8)
  | BCD_I (x : U8)
  | SAVE_I (x : U8)
  | RESTORE_I (x : U8)
  deriving DecidableEq, Repr

/-- `format_instruction_imm12` — opcode.rs:213-223. -/
def formatImm12 (hi4 : U8) (imm12 : U12) : Run U16 :=
  if hi4 ≤ 0xF then .ret ((hi4.setWidth 16 <<< 12) ||| imm12.setWidth 16) else .panic

/-- `format_instruction_x_imm8` — opcode.rs:225-236. -/
def formatXImm8 (hi4 x imm8 : U8) : Run U16 :=
  if hi4 ≤ 0xF ∧ x ≤ 0xF then
    .ret ((hi4.setWidth 16 <<< 12) ||| (x.setWidth 16 <<< 8) ||| imm8.setWidth 16)
  else .panic

/-- `format_instruction_x_y` — opcode.rs:238-251. -/
def formatXY (hi4 x y lo4 : U8) : Run U16 :=
  if hi4 ≤ 0xF ∧ x ≤ 0xF ∧ y ≤ 0xF ∧ lo4 ≤ 0xF then
    .ret ((hi4.setWidth 16 <<< 12) ||| (x.setWidth 16 <<< 8) ||| (y.setWidth 16 <<< 4) ||| lo4.setWidth 16)
  else .panic

namespace Opcode

/-- `Opcode::from_instruction` — opcode.rs:59-113. The `match` on nibbles is a chain of tests, in order. -/
def fromInstruction (instruction : U16) : Opcode :=
  let n0 : U8 := ((instruction &&& 0xF000) >>> 12).setWidth 8
  let n1 : U8 := ((instruction &&& 0x0F00) >>> 8).setWidth 8
  let n2 : U8 := ((instruction &&& 0x00F0) >>> 4).setWidth 8
  let n3 : U8 := ((instruction &&& 0x000F) >>> 0).setWidth 8
  let imm12 : U12 := (instruction &&& 0x0FFF).setWidth 12
  let imm8 : U8 := (instruction &&& 0x00FF).setWidth 8
  let imm4 : U8 := (instruction &&& 0x000F).setWidth 8
  let x := n1
  let y := n2
  if n0 = 0x0 ∧ n1 = 0x0 ∧ n2 = 0xE ∧ n3 = 0x0 then .CLS
  else if n0 = 0x0 ∧ n1 = 0x0 ∧ n2 = 0xE ∧ n3 = 0xE then .RET
  else if n0 = 0x0 ∧ n1 = 0x0 ∧ n2 = 0xF ∧ n3 = 0x8 then .DEREF_I
  else if n0 = 0x0 ∧ n1 = 0x0 ∧ n2 = 0xF ∧ n3 = 0x9 then .TRAPRET
  else if n0 = 0x0 ∧ n1 = 0x0 ∧ n2 = 0xF ∧ n3 = 0xA then .TRAP
  else if n0 = 0x1 then .JP imm12
  else if n0 = 0x2 then .CALL imm12
  else if n0 = 0x3 then .SE_IMMEDIATE x imm8
  else if n0 = 0x4 then .SNE_IMMEDIATE x imm8
  else if n0 = 0x5 ∧ n3 = 0x0 then .SE_REGISTER x y
  else if n0 = 0x6 then .LD_IMMEDIATE x imm8
  else if n0 = 0x7 then .ADD_IMMEDIATE x imm8
  else if n0 = 0x8 ∧ n3 = 0x0 then .LD_REGISTER x y
  else if n0 = 0x8 ∧ n3 = 0x1 then .OR x y
  else if n0 = 0x8 ∧ n3 = 0x2 then .AND x y
  else if n0 = 0x8 ∧ n3 = 0x3 then .XOR x y
  else if n0 = 0x8 ∧ n3 = 0x4 then .ADD_REGISTER x y
  else if n0 = 0x8 ∧ n3 = 0x5 then .SUB x y
  else if n0 = 0x8 ∧ n3 = 0x6 then .SHR x y
  else if n0 = 0x8 ∧ n3 = 0x7 then .SUBN x y
  else if n0 = 0x8 ∧ n3 = 0xE then .SHL x y
  else if n0 = 0x9 ∧ n3 = 0x0 then .SNE_REGISTER x y
  else if n0 = 0xA then .LD_I imm12
  else if n0 = 0xB then .JP_V0 imm12
  else if n0 = 0xC then .RND x imm8
  else if n0 = 0xD then .DRW x y imm4
  else if n0 = 0xE ∧ n2 = 0x9 ∧ n3 = 0xE then .SE_K x
  else if n0 = 0xE ∧ n2 = 0xA ∧ n3 = 0x1 then .SNE_K x
  else if n0 = 0xF ∧ n2 = 0x0 ∧ n3 = 0x7 then .LD_X_DT x
  else if n0 = 0xF ∧ n2 = 0x0 ∧ n3 = 0xA then .LD_X_K x
  else if n0 = 0xF ∧ n2 = 0x1 ∧ n3 = 0x5 then .LD_DT_X x
  else if n0 = 0xF ∧ n2 = 0x1 ∧ n3 = 0x8 then .LD_ST_X x
  else if n0 = 0xF ∧ n2 = 0x1 ∧ n3 = 0xE then .ADD_I_X x
  else if n0 = 0xF ∧ n2 = 0x2 ∧ n3 = 0x9 then .SPRITE_I x
  else if n0 = 0xF ∧ n2 = 0x3 ∧ n3 = 0x3 then .BCD_I x
  else if n0 = 0xF ∧ n2 = 0x5 ∧ n3 = 0x5 then .SAVE_I x
  else if n0 = 0xF ∧ n2 = 0x6 ∧ n3 = 0x5 then .RESTORE_I x
  else .NOP

/-- `{:1x}`, `{:2x}` and `{:3x}` of the immediates in opcode.rs:115-156: padded with blanks. -/
def hex (width n : Nat) : Str := padLeft ' ' width (showHexLower n)

/-- `Opcode::to_assembly_string` — opcode.rs:115-156. -/
def toAssemblyString : Opcode → Str
  | .NOP => "nop".toList
  | .CLS => "cls".toList
  | .RET => "ret".toList
  | .DEREF_I => "ld i, [i]".toList
  | .TRAP => "trap".toList
  | .TRAPRET => "trapret".toList
  | .JP target => "jp $".toList ++ hex 3 target.toNat
  | .CALL target => "call $".toList ++ hex 3 target.toNat
  | .SE_IMMEDIATE x value => "se v".toList ++ hex 1 x.toNat ++ ", $".toList ++ hex 2 value.toNat
  | .SNE_IMMEDIATE x value => "sne v".toList ++ hex 1 x.toNat ++ ", $".toList ++ hex 2 value.toNat
  | .SE_REGISTER x y => "se v".toList ++ hex 1 x.toNat ++ ", v".toList ++ hex 1 y.toNat
  | .SNE_REGISTER x y => "sne v".toList ++ hex 1 x.toNat ++ ", v".toList ++ hex 1 y.toNat
  | .LD_IMMEDIATE x value => "ld v".toList ++ hex 1 x.toNat ++ ", $".toList ++ hex 2 value.toNat
  | .ADD_IMMEDIATE x value => "add v".toList ++ hex 1 x.toNat ++ ", $".toList ++ hex 2 value.toNat
  | .LD_REGISTER x y => "ld v".toList ++ hex 1 x.toNat ++ ", v".toList ++ hex 1 y.toNat
  | .OR x y => "or v".toList ++ hex 1 x.toNat ++ ", v".toList ++ hex 1 y.toNat
  | .AND x y => "and v".toList ++ hex 1 x.toNat ++ ", v".toList ++ hex 1 y.toNat
  | .XOR x y => "xor v".toList ++ hex 1 x.toNat ++ ", v".toList ++ hex 1 y.toNat
  | .ADD_REGISTER x y => "add v".toList ++ hex 1 x.toNat ++ ", v".toList ++ hex 1 y.toNat
  | .SUB x y => "sub v".toList ++ hex 1 x.toNat ++ ", v".toList ++ hex 1 y.toNat
  | .SHR x _ => "shr v".toList ++ hex 1 x.toNat
  | .SUBN x y => "subn v".toList ++ hex 1 x.toNat ++ ", v".toList ++ hex 1 y.toNat
  | .SHL x _ => "shl v".toList ++ hex 1 x.toNat
  | .LD_I value => "ld i, $".toList ++ hex 3 value.toNat
  | .JP_V0 value => "jp v0, $".toList ++ hex 3 value.toNat
  | .RND x mask => "rnd v".toList ++ hex 1 x.toNat ++ ", $".toList ++ hex 2 mask.toNat
  | .DRW x y bytes =>
    "drw v".toList ++ hex 1 x.toNat ++ ", v".toList ++ hex 1 y.toNat ++ ", $".toList ++ hex 1 bytes.toNat
  | .SE_K x => "skp v".toList ++ hex 1 x.toNat
  | .SNE_K x => "sknp v".toList ++ hex 1 x.toNat
  | .LD_X_DT x => "ld v".toList ++ hex 1 x.toNat ++ ", dt".toList
  | .LD_X_K x => "ld v".toList ++ hex 1 x.toNat ++ ", k".toList
  | .LD_DT_X x => "ld dt, v".toList ++ hex 1 x.toNat
  | .LD_ST_X x => "ld st, v".toList ++ hex 1 x.toNat
  | .ADD_I_X x => "add i, v".toList ++ hex 1 x.toNat
  | .SPRITE_I x => "ld f, v".toList ++ hex 1 x.toNat
  | .BCD_I x => "ld b, v".toList ++ hex 1 x.toNat
  | .SAVE_I x => "ld [i], v".toList ++ hex 1 x.toNat
  | .RESTORE_I x => "ld v".toList ++ hex 1 x.toNat ++ ", [i]".toList

/-- `Opcode::as_instruction` — opcode.rs:158-199. -/
def asInstruction : Opcode → Run U16
  | .NOP => .ret 0x0000
  | .CLS => .ret 0x00E0
  | .RET => .ret 0x00EE
  | .DEREF_I => .ret 0x00F8
  | .TRAPRET => .ret 0x00F9
  | .TRAP => .ret 0x00FA
  | .JP target => formatImm12 0x1 target
  | .CALL target => formatImm12 0x2 target
  | .SE_IMMEDIATE x value => formatXImm8 0x3 x value
  | .SNE_IMMEDIATE x value => formatXImm8 0x4 x value
  | .SE_REGISTER x y => formatXY 0x5 x y 0x0
  | .SNE_REGISTER x y => formatXY 0x9 x y 0x0
  | .LD_IMMEDIATE x value => formatXImm8 0x6 x value
  | .ADD_IMMEDIATE x value => formatXImm8 0x7 x value
  | .LD_REGISTER x y => formatXY 0x8 x y 0x0
  | .OR x y => formatXY 0x8 x y 0x1
  | .AND x y => formatXY 0x8 x y 0x2
  | .XOR x y => formatXY 0x8 x y 0x3
  | .ADD_REGISTER x y => formatXY 0x8 x y 0x4
  | .SUB x y => formatXY 0x8 x y 0x5
  | .SHR x y => formatXY 0x8 x y 0x6
  | .SUBN x y => formatXY 0x8 x y 0x7
  | .SHL x y => formatXY 0x8 x y 0xE
  | .LD_I value => formatImm12 0xA value
  | .JP_V0 value => formatImm12 0xB value
  | .RND x mask => formatXImm8 0xC x mask
  | .DRW x y bytes => formatXY 0xD x y bytes
  | .SE_K x => formatXImm8 0xE x 0x9E
  | .SNE_K x => formatXImm8 0xE x 0xA1
  | .LD_X_DT x => formatXImm8 0xF x 0x07
  | .LD_X_K x => formatXImm8 0xF x 0x0A
  | .LD_DT_X x => formatXImm8 0xF x 0x15
  | .LD_ST_X x => formatXImm8 0xF x 0x18
  | .ADD_I_X x => formatXImm8 0xF x 0x1E
  | .SPRITE_I x => formatXImm8 0xF x 0x29
  | .BCD_I x => formatXImm8 0xF x 0x33
  | .SAVE_I x => formatXImm8 0xF x 0x55
  | .RESTORE_I x => formatXImm8 0xF x 0x65

/-- `Display for Opcode` — opcode.rs:207-211. -/
def display (op : Opcode) : Str := op.toAssemblyString

/-- `Opcode::to_formatted_assembly_string` — opcode.rs:201-203. -/
def toFormattedAssemblyString (op : Opcode) (leadingSpaces : Nat) : Str :=
  List.replicate leadingSpaces ' ' ++ op.display

end Opcode

end C8S
