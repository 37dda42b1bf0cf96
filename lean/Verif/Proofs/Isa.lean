import Verif.Spec.Isa
import Verif.Proofs.Opcode
import Verif.Proofs.Directive

namespace C8S

open Spec

namespace Opcode

/-- The table row of an opcode. -/
def row : Opcode → Row
  | .NOP => ⟨"0000".toList, "nop".toList, []⟩
  | .CLS => ⟨"00E0".toList, "cls".toList, []⟩
  | .RET => ⟨"00EE".toList, "ret".toList, []⟩
  | .JP _ => ⟨"1nnn".toList, "jp".toList, [.addr]⟩
  | .CALL _ => ⟨"2nnn".toList, "call".toList, [.addr]⟩
  | .SE_IMMEDIATE _ _ => ⟨"3xkk".toList, "se".toList, [.vx, .nn]⟩
  | .SNE_IMMEDIATE _ _ => ⟨"4xkk".toList, "sne".toList, [.vx, .nn]⟩
  | .SE_REGISTER _ _ => ⟨"5xy0".toList, "se".toList, [.vx, .vy]⟩
  | .LD_IMMEDIATE _ _ => ⟨"6xkk".toList, "ld".toList, [.vx, .nn]⟩
  | .ADD_IMMEDIATE _ _ => ⟨"7xkk".toList, "add".toList, [.vx, .nn]⟩
  | .LD_REGISTER _ _ => ⟨"8xy0".toList, "ld".toList, [.vx, .vy]⟩
  | .OR _ _ => ⟨"8xy1".toList, "or".toList, [.vx, .vy]⟩
  | .AND _ _ => ⟨"8xy2".toList, "and".toList, [.vx, .vy]⟩
  | .XOR _ _ => ⟨"8xy3".toList, "xor".toList, [.vx, .vy]⟩
  | .ADD_REGISTER _ _ => ⟨"8xy4".toList, "add".toList, [.vx, .vy]⟩
  | .SUB _ _ => ⟨"8xy5".toList, "sub".toList, [.vx, .vy]⟩
  | .SHR _ _ => ⟨"8xy6".toList, "shr".toList, [.vx]⟩
  | .SUBN _ _ => ⟨"8xy7".toList, "subn".toList, [.vx, .vy]⟩
  | .SHL _ _ => ⟨"8xyE".toList, "shl".toList, [.vx]⟩
  | .SNE_REGISTER _ _ => ⟨"9xy0".toList, "sne".toList, [.vx, .vy]⟩
  | .LD_I _ => ⟨"Annn".toList, "ld".toList, [.i, .addr]⟩
  | .JP_V0 _ => ⟨"Bnnn".toList, "jp".toList, [.v0, .addr]⟩
  | .RND _ _ => ⟨"Cxkk".toList, "rnd".toList, [.vx, .nn]⟩
  | .DRW _ _ _ => ⟨"Dxyn".toList, "drw".toList, [.vx, .vy, .n]⟩
  | .SE_K _ => ⟨"Ex9E".toList, "skp".toList, [.vx]⟩
  | .SNE_K _ => ⟨"ExA1".toList, "sknp".toList, [.vx]⟩
  | .LD_X_DT _ => ⟨"Fx07".toList, "ld".toList, [.vx, .dt]⟩
  | .LD_X_K _ => ⟨"Fx0A".toList, "ld".toList, [.vx, .k]⟩
  | .LD_DT_X _ => ⟨"Fx15".toList, "ld".toList, [.dt, .vx]⟩
  | .LD_ST_X _ => ⟨"Fx18".toList, "ld".toList, [.st, .vx]⟩
  | .ADD_I_X _ => ⟨"Fx1E".toList, "add".toList, [.i, .vx]⟩
  | .SPRITE_I _ => ⟨"Fx29".toList, "ld".toList, [.f, .vx]⟩
  | .BCD_I _ => ⟨"Fx33".toList, "ld".toList, [.b, .vx]⟩
  | .SAVE_I _ => ⟨"Fx55".toList, "ld".toList, [.indI, .vx]⟩
  | .RESTORE_I _ => ⟨"Fx65".toList, "ld".toList, [.vx, .indI]⟩
  | .DEREF_I => ⟨"00F8".toList, "ld".toList, [.i, .indI]⟩
  | .TRAPRET => ⟨"00F9".toList, "trapret".toList, []⟩
  | .TRAP => ⟨"00FA".toList, "trap".toList, []⟩

theorem row_mem (op : Opcode) : op.row ∈ table := by
  have h : ∀ r : Row, decide (r ∈ table) = true → r ∈ table := fun r h => of_decide_eq_true h
  cases op <;> exact h _ rfl

/-- The variable parts of an opcode. -/
def vars : Opcode → Vars
  | .JP n | .CALL n | .LD_I n | .JP_V0 n => { nnn := n.toNat }
  | .SE_IMMEDIATE x v | .SNE_IMMEDIATE x v | .LD_IMMEDIATE x v | .ADD_IMMEDIATE x v | .RND x v =>
    { x := x.toNat, kk := v.toNat }
  | .SE_REGISTER x y | .SNE_REGISTER x y | .LD_REGISTER x y | .OR x y | .AND x y | .XOR x y
  | .ADD_REGISTER x y | .SUB x y | .SHR x y | .SUBN x y | .SHL x y => { x := x.toNat, y := y.toNat }
  | .DRW x y n => { x := x.toNat, y := y.toNat, n := n.toNat }
  | .SE_K x | .SNE_K x | .LD_X_DT x | .LD_X_K x | .LD_DT_X x | .LD_ST_X x | .ADD_I_X x | .SPRITE_I x
  | .BCD_I x | .SAVE_I x | .RESTORE_I x => { x := x.toNat }
  | _ => {}

end Opcode

/-- The word of a template, in arithmetic. -/
theorem templateWord (op : Opcode) : hexValue (fill op.vars op.row.template) = op.word := by
  cases op <;> simp [Opcode.row, Opcode.vars, fill, hexValue, fixedDigit, Opcode.word] <;> omega

end C8S
