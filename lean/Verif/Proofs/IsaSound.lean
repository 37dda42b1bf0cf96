import Verif.Proofs.Isa

namespace C8S

open Spec Instruction

theorem resolve_ok {label : Str} {labels : LabelMap} {v : U12} :
    resolveLabelWithMap label labels = .ok v ↔ labels.get label = some v := by
  unfold resolveLabelWithMap
  cases labels.get label <;> simp

theorem resolve_error {label : Str} {labels : LabelMap} {e : InstructionError} :
    resolveLabelWithMap label labels = .error e ↔
      labels.get label = none ∧ e = .unableToResolveLabel label := by
  unfold resolveLabelWithMap
  cases labels.get label <;> simp [eq_comm]

theorem to8_ok {v : U12} {b : U8} : numericLiteralTo8BitField v = .ok b ↔ b.toNat = v.toNat := by
  unfold numericLiteralTo8BitField
  have := b.isLt
  split
  · rw [Except.ok.injEq, ← BitVec.toNat_inj, BitVec.toNat_setWidth]
    omega
  · constructor
    · intro h; cases h
    · intro h; omega

theorem to8_error {v : U12} {e : InstructionError} :
    numericLiteralTo8BitField v = .error e ↔ 255 < v.toNat ∧ e = .expectingEightBitValue v.toNat := by
  unfold numericLiteralTo8BitField
  split
  · constructor
    · intro h; cases h
    · intro h; omega
  · rw [Except.error.injEq]
    exact ⟨fun h => ⟨by omega, h.symm⟩, fun h => h.2.symm⟩

theorem to4_eq (v : U12) : numericLiteralTo4BitField v =
    if v.toNat ≤ 15 then .ok (BitVec.ofNat 8 v.toNat) else .error (.expectingFourBitValue v.toNat) := by
  unfold numericLiteralTo4BitField
  by_cases h : v.toNat ≤ 255
  · rw [if_pos h]
    have e : (v.setWidth 8 < (16 : U8)) ↔ v.toNat ≤ 15 := by
      rw [BitVec.lt_def, BitVec.toNat_setWidth]
      show v.toNat % 256 < 16 ↔ _
      omega
    have e2 : (v.setWidth 8 : U8) = BitVec.ofNat 8 v.toNat := by
      apply BitVec.eq_of_toNat_eq
      rw [BitVec.toNat_setWidth, BitVec.toNat_ofNat]
    simp only [← e2, e]
  · rw [if_neg h, if_neg (by omega)]

theorem to4_ok {v : U12} {b : U8} : numericLiteralTo4BitField v = .ok b ↔ b.toNat = v.toNat ∧ v.toNat ≤ 15 := by
  rw [to4_eq]
  split
  · rw [Except.ok.injEq, ← BitVec.toNat_inj, BitVec.toNat_ofNat]
    omega
  · constructor
    · intro h; cases h
    · intro h; omega

theorem to4_error {v : U12} {e : InstructionError} :
    numericLiteralTo4BitField v = .error e ↔ 15 < v.toNat ∧ e = .expectingFourBitValue v.toNat := by
  rw [to4_eq]
  split
  · constructor
    · intro h; cases h
    · intro h; omega
  · rw [Except.error.injEq]
    exact ⟨fun h => ⟨by omega, h.symm⟩, fun h => h.2.symm⟩

theorem imm8Arm_ok {ctor : U8 → Opcode} {v : U12} {o : Option Opcode} :
    imm8Arm ctor v = .ok o ↔ ∃ b : U8, b.toNat = v.toNat ∧ o = some (ctor b) := by
  unfold imm8Arm
  cases h : numericLiteralTo8BitField v with
  | ok b =>
    have hb := to8_ok.1 h
    simp only [Except.ok.injEq]
    constructor
    · intro e; exact ⟨b, hb, e.symm⟩
    · rintro ⟨b', hb', e⟩
      have : b = b' := BitVec.eq_of_toNat_eq (by omega)
      rw [this, e]
  | error e =>
    have := (to8_error.1 h).1
    constructor
    · intro h; cases h
    · rintro ⟨b, hb, _⟩
      have := b.isLt
      omega

theorem imm8Arm_error {ctor : U8 → Opcode} {v : U12} {e : InstructionError} :
    imm8Arm ctor v = .error e ↔ 255 < v.toNat ∧ e = .expectingEightBitValue v.toNat := by
  rw [← to8_error]
  unfold imm8Arm
  cases h : numericLiteralTo8BitField v <;> simp

theorem imm8LabelArm_ok {ctor : U8 → Opcode} {label : Str} {labels : LabelMap} {o : Option Opcode} :
    imm8LabelArm ctor label labels = .ok o ↔
      ∃ v : U12, labels.get label = some v ∧ ∃ b : U8, b.toNat = v.toNat ∧ o = some (ctor b) := by
  unfold imm8LabelArm
  cases h : resolveLabelWithMap label labels with
  | ok v =>
    rw [resolve_ok] at h
    simp only [imm8Arm_ok, h, Option.some.injEq]
    constructor
    · rintro ⟨b, h1, h2⟩; exact ⟨v, rfl, b, h1, h2⟩
    · rintro ⟨v', rfl, b, h1, h2⟩; exact ⟨b, h1, h2⟩
  | error e =>
    rw [resolve_error] at h
    constructor
    · intro h; cases h
    · rintro ⟨v, h1, _⟩
      rw [h.1] at h1
      cases h1

theorem imm8LabelArm_error {ctor : U8 → Opcode} {label : Str} {labels : LabelMap} {e : InstructionError} :
    imm8LabelArm ctor label labels = .error e ↔
      (labels.get label = none ∧ e = .unableToResolveLabel label) ∨
      ∃ v : U12, labels.get label = some v ∧ 255 < v.toNat ∧ e = .expectingEightBitValue v.toNat := by
  unfold imm8LabelArm
  cases h : resolveLabelWithMap label labels with
  | ok v =>
    rw [resolve_ok] at h
    simp [imm8Arm_error, h]
  | error e' =>
    rw [resolve_error] at h
    simp [h.1, h.2, eq_comm]

theorem imm12LabelArm_ok {ctor : U12 → Opcode} {label : Str} {labels : LabelMap} {o : Option Opcode} :
    imm12LabelArm ctor label labels = .ok o ↔
      ∃ v : U12, labels.get label = some v ∧ o = some (ctor v) := by
  unfold imm12LabelArm
  cases h : resolveLabelWithMap label labels with
  | ok v =>
    rw [resolve_ok] at h
    simp [h, eq_comm]
  | error e =>
    rw [resolve_error] at h
    simp [h.1]

theorem imm12LabelArm_error {ctor : U12 → Opcode} {label : Str} {labels : LabelMap} {e : InstructionError} :
    imm12LabelArm ctor label labels = .error e ↔ labels.get label = none ∧ e = .unableToResolveLabel label := by
  unfold imm12LabelArm
  cases h : resolveLabelWithMap label labels with
  | ok v =>
    rw [resolve_ok] at h
    simp [h]
  | error e' =>
    rw [resolve_error] at h
    simp [h.1, h.2, eq_comm]

/-- The result of the per-arity matches, before the "no matching format" error. -/
def rawMatch (m : Str) (fields : List Field) (labels : LabelMap) : Except InstructionError (Option Opcode) :=
  match fields with
  | [] => .ok (match0 m)
  | [f0] => match1 m f0 labels
  | [f0, f1] => match2 m f0 f1 labels
  | [f0, f1, f2] => match3 m f0 f1 f2 labels
  | _ => .ok none

/-- What an accepted instruction says about its operands. -/
def Accepted (labels : LabelMap) (m : Str) (fields : List Field) (op : Opcode) : Prop :=
  m = op.row.mnemonic ∧ (op.WellFormed → FitsAll labels op.vars op.row.slots fields) ∧
    (.vy ∉ op.row.slots → op.vars.y = 0)

set_option hygiene false in
local macro "fin2" : tactic => `(tactic| (
  try simp only [imm8Arm_ok, imm8LabelArm_ok, imm12LabelArm_ok] at h
  first
    | (cases h; done)
    | (cases h; subst_vars
       refine ⟨rfl, fun w => ?_, fun hy => by first | rfl | exact (hy (by simp [Opcode.row])).elim⟩
       first
       | exact .cons (.vx rfl w.1) (.cons (.vy rfl w.2) .nil)
       | exact .cons .i (.cons (.addr (.literal _)) .nil)
       | exact .cons .v0 (.cons (.addr (.literal _)) .nil)
       | exact .cons (.vx rfl w) (.cons (by constructor) .nil)
       | exact .cons (by constructor) (.cons (.vx rfl w) .nil)
       | exact .cons (by constructor) (.cons (by constructor) .nil)
       | exact .cons (by constructor) (.cons (by constructor) .nil))
    | (obtain ⟨b, hb, h⟩ := h; cases h; subst_vars
       refine ⟨rfl, fun w => ?_, fun hy => rfl⟩
       refine .cons (.vx rfl w) (.cons (.nn ?_ (by have := b.isLt; simp only [Opcode.vars]; omega)) .nil)
       simp only [Opcode.vars, hb]; exact .literal _)
    | (obtain ⟨v, hv, b, hb, h⟩ := h; cases h; subst_vars
       refine ⟨rfl, fun w => ?_, fun hy => rfl⟩
       refine .cons (.vx rfl w) (.cons (.nn ?_ (by have := b.isLt; simp only [Opcode.vars]; omega)) .nil)
       simp only [Opcode.vars, hb]; exact .label hv)
    | (obtain ⟨v, hv, h⟩ := h; cases h; subst_vars
       exact ⟨rfl, fun w => .cons (by constructor) (.cons (.addr (.label hv)) .nil), fun hy => rfl⟩)))

theorem match2_sound {m : Str} {f0 f1 : Field} {labels : LabelMap} {op : Opcode}
    (h : match2 m f0 f1 labels = .ok (some op)) : Accepted labels m [f0, f1] op := by
  unfold match2 at h
  by_cases c_ld : m = "ld".toList
  · rw [if_pos c_ld] at h
    repeat' split at h
    all_goals fin2
  rw [if_neg c_ld] at h
  by_cases c_se : m = "se".toList
  · rw [if_pos c_se] at h
    repeat' split at h
    all_goals fin2
  rw [if_neg c_se] at h
  by_cases c_sne : m = "sne".toList
  · rw [if_pos c_sne] at h
    repeat' split at h
    all_goals fin2
  rw [if_neg c_sne] at h
  by_cases c_add : m = "add".toList
  · rw [if_pos c_add] at h
    repeat' split at h
    all_goals fin2
  rw [if_neg c_add] at h
  by_cases c_or : m = "or".toList
  · rw [if_pos c_or] at h
    repeat' split at h
    all_goals fin2
  rw [if_neg c_or] at h
  by_cases c_and : m = "and".toList
  · rw [if_pos c_and] at h
    repeat' split at h
    all_goals fin2
  rw [if_neg c_and] at h
  by_cases c_xor : m = "xor".toList
  · rw [if_pos c_xor] at h
    repeat' split at h
    all_goals fin2
  rw [if_neg c_xor] at h
  by_cases c_sub : m = "sub".toList
  · rw [if_pos c_sub] at h
    repeat' split at h
    all_goals fin2
  rw [if_neg c_sub] at h
  by_cases c_subn : m = "subn".toList
  · rw [if_pos c_subn] at h
    repeat' split at h
    all_goals fin2
  rw [if_neg c_subn] at h
  by_cases c_jp : m = "jp".toList
  · rw [if_pos c_jp] at h
    repeat' split at h
    all_goals fin2
  rw [if_neg c_jp] at h
  by_cases c_rnd : m = "rnd".toList
  · rw [if_pos c_rnd] at h
    repeat' split at h
    all_goals fin2
  rw [if_neg c_rnd] at h
  cases h

theorem rawMatch_sound {m : Str} {fields : List Field} {labels : LabelMap} {op : Opcode}
    (h : rawMatch m fields labels = .ok (some op)) : Accepted labels m fields op := by
  unfold rawMatch at h
  split at h
  · -- no operand
    simp only [match0, Except.ok.injEq] at h
    repeat' split at h
    all_goals first
      | (injection h with h; subst h; subst_vars; exact ⟨rfl, fun _ => .nil, fun _ => rfl⟩)
      | cases h
  · -- one operand
    rename_i f0
    simp only [match1] at h
    repeat' split at h
    all_goals first
      | (injection h with h; injection h with h; subst h; subst_vars
         exact ⟨rfl, fun w => .cons (.addr (.literal _)) .nil, fun _ => rfl⟩)
      | (rename_i hv; rw [resolve_ok] at hv; injection h with h; injection h with h; subst h; subst_vars
         exact ⟨rfl, fun w => .cons (.addr (.label hv)) .nil, fun _ => rfl⟩)
      | (injection h with h; injection h with h; subst h; subst_vars
         exact ⟨rfl, fun w => .cons (.vx rfl (by first | exact w | exact w.1)) .nil, fun _ => rfl⟩)
      | (cases h; done)
  · -- two operands
    rename_i f0 f1
    exact match2_sound h
  · -- three operands
    rename_i f0 f1 f2
    simp only [match3] at h
    repeat' split at h
    all_goals try (cases h; done)
    · rename_i _ _ _ _ _ hv
      rw [to4_ok] at hv
      injection h with h; injection h with h; subst h; subst_vars
      refine ⟨rfl, fun w => .cons (.vx rfl w.1) (.cons (.vy rfl w.2.1) (.cons (.n ?_ w.2.2) .nil)), fun hy =>
        (hy (by simp [Opcode.row])).elim⟩
      simp only [Opcode.vars, hv.1]; exact .literal _
    · rename_i hl _ _ hv
      rw [resolve_ok] at hl
      rw [to4_ok] at hv
      injection h with h; injection h with h; subst h; subst_vars
      refine ⟨rfl, fun w => .cons (.vx rfl w.1) (.cons (.vy rfl w.2.1) (.cons (.n ?_ w.2.2) .nil)), fun hy =>
        (hy (by simp [Opcode.row])).elim⟩
      simp only [Opcode.vars, hv.1]; exact .label hl
  · cases h

end C8S
