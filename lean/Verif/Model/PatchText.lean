import Verif.Model.Opcode

/-
The text of an opcode with another formatting of the immediate values. Not the code of /repo: `to_assembly_string` of
opcode.rs:115-156 with its `{:1x}`, `{:2x}` and `{:3x}` after a `$` exchanged (`C132_code`: with them it is that function).
-/

namespace C8S.Opcode

/-- `Opcode::to_assembly_string` — opcode.rs:115-156, with `imm width value` for the digits of the immediate values. The
registers are written as in the code. -/
def textWith (imm : Nat → Nat → Str) : Opcode → Str
  | .NOP => "nop".toList
  | .CLS => "cls".toList
  | .RET => "ret".toList
  | .DEREF_I => "ld i, [i]".toList
  | .TRAP => "trap".toList
  | .TRAPRET => "trapret".toList
  | .JP target => "jp $".toList ++ imm 3 target.toNat
  | .CALL target => "call $".toList ++ imm 3 target.toNat
  | .SE_IMMEDIATE x value => "se v".toList ++ hex 1 x.toNat ++ ", $".toList ++ imm 2 value.toNat
  | .SNE_IMMEDIATE x value => "sne v".toList ++ hex 1 x.toNat ++ ", $".toList ++ imm 2 value.toNat
  | .SE_REGISTER x y => "se v".toList ++ hex 1 x.toNat ++ ", v".toList ++ hex 1 y.toNat
  | .SNE_REGISTER x y => "sne v".toList ++ hex 1 x.toNat ++ ", v".toList ++ hex 1 y.toNat
  | .LD_IMMEDIATE x value => "ld v".toList ++ hex 1 x.toNat ++ ", $".toList ++ imm 2 value.toNat
  | .ADD_IMMEDIATE x value => "add v".toList ++ hex 1 x.toNat ++ ", $".toList ++ imm 2 value.toNat
  | .LD_REGISTER x y => "ld v".toList ++ hex 1 x.toNat ++ ", v".toList ++ hex 1 y.toNat
  | .OR x y => "or v".toList ++ hex 1 x.toNat ++ ", v".toList ++ hex 1 y.toNat
  | .AND x y => "and v".toList ++ hex 1 x.toNat ++ ", v".toList ++ hex 1 y.toNat
  | .XOR x y => "xor v".toList ++ hex 1 x.toNat ++ ", v".toList ++ hex 1 y.toNat
  | .ADD_REGISTER x y => "add v".toList ++ hex 1 x.toNat ++ ", v".toList ++ hex 1 y.toNat
  | .SUB x y => "sub v".toList ++ hex 1 x.toNat ++ ", v".toList ++ hex 1 y.toNat
  | .SHR x _ => "shr v".toList ++ hex 1 x.toNat
  | .SUBN x y => "subn v".toList ++ hex 1 x.toNat ++ ", v".toList ++ hex 1 y.toNat
  | .SHL x _ => "shl v".toList ++ hex 1 x.toNat
  | .LD_I value => "ld i, $".toList ++ imm 3 value.toNat
  | .JP_V0 value => "jp v0, $".toList ++ imm 3 value.toNat
  | .RND x mask => "rnd v".toList ++ hex 1 x.toNat ++ ", $".toList ++ imm 2 mask.toNat
  | .DRW x y bytes =>
    "drw v".toList ++ hex 1 x.toNat ++ ", v".toList ++ hex 1 y.toNat ++ ", $".toList ++ imm 1 bytes.toNat
  | .SE_K x => "skp v".toList ++ hex 1 x.toNat
  | .SNE_K x => "sknp v".toList ++ hex 1 x.toNat
  | .LD_X_DT x => "ld v".toList ++ hex 1 x.toNat ++ ", dt".toList
  | .LD_X_K x => "ld v".toList ++ hex 1 x.toNat ++ ", k".toList
  | .LD_DT_X x => "ld dt, v".toList ++ hex 1 x.toNat
  | .LD_ST_X x => "ld st, v".toList ++ hex 1 x.toNat
  | .ADD_I_X x => "add i, v".toList ++ hex 1 x.toNat
  | .SPRITE_I x => "ld f, v".toList ++ hex 1 x.toNat
  | .BCD_I x => "ld b, v".toList ++ hex 1 x.toNat
  | .SAVE_I x => "ld [i], v".toList ++ hex 1 x.toNat
  | .RESTORE_I x => "ld v".toList ++ hex 1 x.toNat ++ ", [i]".toList

/-- A formatting that pads on the left with `fill`: `{:3x}` (opcode.rs:123) for a blank, `{:03x}` for a zero. -/
def padded (fill : Char) (width n : Nat) : Str := padLeft fill width (showHexLower n)

end C8S.Opcode
