import Verif.Model.Opcode

/- Specification vocabulary for opcodes. -/

namespace C8S.Opcode

/-- Register numbers and the sprite height fit in four bits. -/
def WellFormed : Opcode → Prop
  | .SE_IMMEDIATE x _ | .SNE_IMMEDIATE x _ | .LD_IMMEDIATE x _ | .ADD_IMMEDIATE x _ | .RND x _ => x.toNat ≤ 15
  | .SE_REGISTER x y | .SNE_REGISTER x y | .LD_REGISTER x y | .OR x y | .AND x y | .XOR x y
  | .ADD_REGISTER x y | .SUB x y | .SHR x y | .SUBN x y | .SHL x y => x.toNat ≤ 15 ∧ y.toNat ≤ 15
  | .DRW x y n => x.toNat ≤ 15 ∧ y.toNat ≤ 15 ∧ n.toNat ≤ 15
  | .SE_K x | .SNE_K x | .LD_X_DT x | .LD_X_K x | .LD_DT_X x | .LD_ST_X x | .ADD_I_X x | .SPRITE_I x
  | .BCD_I x | .SAVE_I x | .RESTORE_I x => x.toNat ≤ 15
  | _ => True

instance (op : Opcode) : Decidable op.WellFormed := by
  cases op <;> unfold WellFormed <;> infer_instance

/-- The immediate value has as many hexadecimal digits as its place in the opcode. -/
def FullWidth : Opcode → Prop
  | .JP v | .CALL v | .LD_I v | .JP_V0 v => 0x100 ≤ v.toNat
  | .SE_IMMEDIATE _ v | .SNE_IMMEDIATE _ v | .LD_IMMEDIATE _ v | .ADD_IMMEDIATE _ v | .RND _ v => 0x10 ≤ v.toNat
  | _ => True

/-- Not a shift with a second register other than v0. -/
def PlainShift : Opcode → Prop
  | .SHR _ y | .SHL _ y => y = 0
  | _ => True

instance (op : Opcode) : Decidable op.FullWidth := by
  cases op <;> unfold FullWidth <;> infer_instance

instance (op : Opcode) : Decidable op.PlainShift := by
  cases op <;> unfold PlainShift <;> infer_instance

end C8S.Opcode
