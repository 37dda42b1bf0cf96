import Verif.Proofs.IsaSound

namespace C8S

open Spec Instruction

/-- The 12-bit value of a literal or label operand. -/
def valueOf (labels : LabelMap) : Field → Except InstructionError U12
  | .numericLiteral v => .ok v
  | .identifier name => resolveLabelWithMap name labels
  | _ => .ok 0

/-- The operand is a literal or a label. -/
def IsValue : Field → Prop
  | .numericLiteral _ => True
  | .identifier _ => True
  | _ => False

theorem valueOf_ok {labels : LabelMap} {f : Field} (hf : IsValue f) {v : U12} :
    valueOf labels f = .ok v ↔ Denotes labels f v.toNat := by
  cases f <;> simp only [IsValue] at hf <;> simp only [valueOf]
  · constructor
    · intro h; cases h; exact .literal _
    · intro h
      generalize e : v.toNat = n at h
      cases h with
      | literal w => rw [BitVec.eq_of_toNat_eq e.symm]
  · rw [resolve_ok]
    constructor
    · exact .label
    · intro h
      generalize e : v.toNat = n at h
      cases h with
      | label h => rw [h, BitVec.eq_of_toNat_eq e.symm]

theorem denotes_isValue {labels : LabelMap} {f : Field} {n : Nat} (h : Denotes labels f n) :
    IsValue f ∧ ∃ v : U12, v.toNat = n ∧ valueOf labels f = .ok v := by
  have hf : IsValue f := by cases h <;> exact trivial
  refine ⟨hf, ?_⟩
  cases h with
  | literal v => exact ⟨v, rfl, rfl⟩
  | label h => exact ⟨_, rfl, resolve_ok.2 h⟩

theorem valueOf_error {labels : LabelMap} {f : Field} {e : InstructionError} :
    valueOf labels f = .error e ↔
      ∃ name, f = .identifier name ∧ labels.get name = none ∧ e = .unableToResolveLabel name := by
  cases f <;> simp [valueOf, resolve_error]

/-- How a value operand is used. -/
inductive Kind where
  | addr | byte | nibble

/-- The result of an instruction with a value operand, from that value. -/
def withValue (kind : Kind) (ctor : U12 → Opcode) (r : Except InstructionError U12) :
    Except InstructionError (Option Opcode) :=
  match r with
  | .error e => .error e
  | .ok v =>
    match kind with
    | .addr => .ok (some (ctor v))
    | .byte => if v.toNat ≤ 255 then .ok (some (ctor v)) else .error (.expectingEightBitValue v.toNat)
    | .nibble => if v.toNat ≤ 15 then .ok (some (ctor v)) else .error (.expectingFourBitValue v.toNat)

/-- The value place of a row, if any, is used this way. -/
def KindOf (slots : List Slot) : Kind → Prop
  | .addr => .nn ∉ slots ∧ .n ∉ slots
  | .byte => .nn ∈ slots ∧ .n ∉ slots
  | .nibble => .nn ∉ slots ∧ .n ∈ slots

/-- What selecting a row does: there is no value operand and the instruction is accepted, or there is exactly
one value operand and the result is determined by its value. -/
inductive Outcome' (labels : LabelMap) (row : Row) (fields : List Field) : Prop where
  | plain (op : Opcode) : (∀ f ∈ fields, ¬ IsValue f) → rawMatch row.mnemonic fields labels = .ok (some op) →
    (FourBitRegisters fields → op.WellFormed) → Outcome' labels row fields
  | value (f : Field) (kind : Kind) (ctor : U12 → Opcode) : f ∈ fields → IsValue f →
    (∀ g ∈ fields, IsValue g → g = f) → KindOf row.slots kind →
    rawMatch row.mnemonic fields labels = withValue kind ctor (valueOf labels f) →
    (FourBitRegisters fields → ∀ v, (kind = .nibble → v.toNat ≤ 15) → (ctor v).WellFormed) →
    Outcome' labels row fields

theorem imm8Arm_eq (ctor : U8 → Opcode) (v : U12) :
    imm8Arm ctor v = withValue .byte (fun v => ctor (v.setWidth 8)) (.ok v) := by
  unfold imm8Arm numericLiteralTo8BitField withValue
  by_cases h : v.toNat ≤ 255
  · simp only [if_pos h]
  · simp only [if_neg h]

theorem imm8LabelArm_eq (ctor : U8 → Opcode) (name : Str) (labels : LabelMap) :
    imm8LabelArm ctor name labels =
      withValue .byte (fun v => ctor (v.setWidth 8)) (valueOf labels (.identifier name)) := by
  unfold imm8LabelArm
  simp only [valueOf, imm8Arm_eq]
  cases resolveLabelWithMap name labels <;> rfl

theorem imm12LabelArm_eq (ctor : U12 → Opcode) (name : Str) (labels : LabelMap) :
    imm12LabelArm ctor name labels = withValue .addr ctor (valueOf labels (.identifier name)) := by
  unfold imm12LabelArm
  simp only [valueOf]
  cases resolveLabelWithMap name labels <;> rfl

/-- Everything the proofs need about a row. -/
def RowOk (row : Row) : Prop :=
  (∀ labels fields, ShapeAll row.slots fields → Outcome' labels row fields) ∧
  ∀ labels fields v, FitsAll labels v row.slots fields → (.vy ∉ row.slots → v.y = 0) →
    ∃ op : Opcode, rawMatch row.mnemonic fields labels = .ok (some op) ∧ op.WellFormed ∧
      op.word = hexValue (fill v row.template)

theorem rowOk_nil {t m : Str} (op : Opcode) (hraw : ∀ labels, rawMatch m [] labels = .ok (some op))
    (hwf : op.WellFormed) (hword : ∀ v, op.word = hexValue (fill v t)) : RowOk ⟨t, m, []⟩ := by
  constructor
  · intro labels fields h
    cases h
    exact .plain op (by simp) (hraw labels) (fun _ => hwf)
  · intro labels fields v h _
    cases h
    exact ⟨op, hraw labels, hwf, hword v⟩

theorem rowOk_vx {t m : Str} (ctor : U8 → Opcode)
    (hraw : ∀ r labels, rawMatch m [.generalPurposeRegister r] labels = .ok (some (ctor r)))
    (hwf : ∀ r, r.toNat ≤ 15 → (ctor r).WellFormed)
    (hword : ∀ r v, r.toNat = v.x → v.y = 0 → (ctor r).word = hexValue (fill v t)) : RowOk ⟨t, m, [.vx]⟩ := by
  constructor
  · intro labels fields h
    cases h with
    | cons h0 h =>
      cases h
      cases h0 with
      | @vx r => exact .plain (ctor r) (by simp [IsValue]) (hraw r labels) (fun h => hwf r (h r (by simp)))
  · intro labels fields v h hy
    cases h with
    | cons h0 h =>
      cases h
      cases h0 with
      | @vx r hr hx => exact ⟨ctor r, hraw r labels, hwf r (by omega), hword r v hr (hy (by simp))⟩

theorem rowOk_vx_vy {t m : Str} (ctor : U8 → U8 → Opcode)
    (hraw : ∀ r s labels, rawMatch m [.generalPurposeRegister r, .generalPurposeRegister s] labels
      = .ok (some (ctor r s)))
    (hwf : ∀ r s, r.toNat ≤ 15 → s.toNat ≤ 15 → (ctor r s).WellFormed)
    (hword : ∀ r s v, r.toNat = v.x → s.toNat = v.y → (ctor r s).word = hexValue (fill v t)) :
    RowOk ⟨t, m, [.vx, .vy]⟩ := by
  constructor
  · intro labels fields h
    cases h with
    | cons h0 h =>
      cases h with
      | cons h1 h =>
        cases h
        cases h0 with
        | @vx r =>
          cases h1 with
          | @vy s => 
            exact .plain (ctor r s) (by simp [IsValue]) (hraw r s labels)
              (fun h => hwf r s (h r (by simp)) (h s (by simp)))
  · intro labels fields v h hy
    cases h with
    | cons h0 h =>
      cases h with
      | cons h1 h =>
        cases h
        cases h0 with
        | @vx r hr hx =>
          cases h1 with
          | @vy s hs hy => exact ⟨ctor r s, hraw r s labels, hwf r s (by omega) (by omega), hword r s v hr hs⟩

/-- Places filled by a fixed register name. -/
def Fixed (s : Slot) (f : Field) : Prop :=
  ¬ IsValue f ∧ (∀ g, Shape s g → g = f) ∧ ∀ labels v g, Fits labels v s g → g = f

theorem fixed_cases :
    Fixed .i .indexRegister ∧ Fixed .indI .indexRegisterIndirect ∧ Fixed .dt .delayTimer ∧
    Fixed .st .soundTimer ∧ Fixed .k .keypadRegister ∧ Fixed .f .sprite ∧ Fixed .b .bcd ∧
    Fixed .v0 (.generalPurposeRegister 0) := by
  refine ⟨?_, ?_, ?_, ?_, ?_, ?_, ?_, ?_⟩ <;>
    exact ⟨fun h => h, fun g h => by cases h; rfl, fun labels v g h => by cases h; rfl⟩

theorem rowOk_vx_fixed {t m : Str} {s : Slot} {f : Field} (hs : Fixed s f) (ctor : U8 → Opcode)
    (hraw : ∀ r labels, rawMatch m [.generalPurposeRegister r, f] labels = .ok (some (ctor r)))
    (hwf : ∀ r, r.toNat ≤ 15 → (ctor r).WellFormed)
    (hword : ∀ r v, r.toNat = v.x → (ctor r).word = hexValue (fill v t)) : RowOk ⟨t, m, [.vx, s]⟩ := by
  constructor
  · intro labels fields h
    cases h with
    | cons h0 h =>
      cases h with
      | cons h1 h =>
        cases h
        cases hs.2.1 _ h1
        cases h0 with
        | @vx r => exact .plain (ctor r) (by simp [hs.1]; exact fun h => h) (hraw r labels) (fun h => hwf r (h r (by simp)))
  · intro labels fields v h hy
    cases h with
    | cons h0 h =>
      cases h with
      | cons h1 h =>
        cases h
        cases hs.2.2 _ _ _ h1
        cases h0 with
        | @vx r hr hx => exact ⟨ctor r, hraw r labels, hwf r (by omega), hword r v hr⟩

theorem rowOk_fixed_vx {t m : Str} {s : Slot} {f : Field} (hs : Fixed s f) (ctor : U8 → Opcode)
    (hraw : ∀ r labels, rawMatch m [f, .generalPurposeRegister r] labels = .ok (some (ctor r)))
    (hwf : ∀ r, r.toNat ≤ 15 → (ctor r).WellFormed)
    (hword : ∀ r v, r.toNat = v.x → (ctor r).word = hexValue (fill v t)) : RowOk ⟨t, m, [s, .vx]⟩ := by
  constructor
  · intro labels fields h
    cases h with
    | cons h1 h =>
      cases h with
      | cons h0 h =>
        cases h
        cases hs.2.1 _ h1
        cases h0 with
        | @vx r => exact .plain (ctor r) (by simp [hs.1]; exact fun h => h) (hraw r labels) (fun h => hwf r (h r (by simp)))
  · intro labels fields v h hy
    cases h with
    | cons h1 h =>
      cases h with
      | cons h0 h =>
        cases h
        cases hs.2.2 _ _ _ h1
        cases h0 with
        | @vx r hr hx => exact ⟨ctor r, hraw r labels, hwf r (by omega), hword r v hr⟩

theorem rowOk_fixed_fixed {t m : Str} {s s' : Slot} {f f' : Field} (hs : Fixed s f) (hs' : Fixed s' f')
    (op : Opcode) (hraw : ∀ labels, rawMatch m [f, f'] labels = .ok (some op))
    (hwf : op.WellFormed) (hword : ∀ v, op.word = hexValue (fill v t)) : RowOk ⟨t, m, [s, s']⟩ := by
  constructor
  · intro labels fields h
    cases h with
    | cons h1 h =>
      cases h with
      | cons h0 h =>
        cases h
        cases hs.2.1 _ h1
        cases hs'.2.1 _ h0
        exact .plain op (by simp [hs.1, hs'.1]) (hraw labels) (fun _ => hwf)
  · intro labels fields v h hy
    cases h with
    | cons h1 h =>
      cases h with
      | cons h0 h =>
        cases h
        cases hs.2.2 _ _ _ h1
        cases hs'.2.2 _ _ _ h0
        exact ⟨op, hraw labels, hwf, hword v⟩

theorem shape_addr {f : Field} (h : Shape .addr f) : IsValue f := by cases h <;> exact trivial
theorem shape_nn {f : Field} (h : Shape .nn f) : IsValue f := by cases h <;> exact trivial
theorem shape_n {f : Field} (h : Shape .n f) : IsValue f := by cases h <;> exact trivial

theorem rowOk_addr {t m : Str} (ctor : U12 → Opcode)
    (hraw : ∀ f labels, IsValue f → rawMatch m [f] labels = withValue .addr ctor (valueOf labels f))
    (hwf : ∀ a, (ctor a).WellFormed)
    (hword : ∀ (a : U12) v, a.toNat = v.nnn → (ctor a).word = hexValue (fill v t)) : RowOk ⟨t, m, [.addr]⟩ := by
  constructor
  · intro labels fields h
    cases h with
    | @cons _ f _ _ h0 h =>
      cases h
      have hf := shape_addr h0
      exact .value f .addr ctor (by simp) hf (by simp) (by simp [KindOf]) (hraw f labels hf) (fun _ v _ => hwf v)
  · intro labels fields v h hy
    cases h with
    | @cons _ f _ _ h0 h =>
      cases h
      cases h0 with
      | addr hd =>
        obtain ⟨hf, a, ha, hv⟩ := denotes_isValue hd
        exact ⟨ctor a, by rw [hraw f labels hf, hv]; rfl, hwf a, hword a v ha⟩

theorem rowOk_fixed_addr {t m : Str} {s : Slot} {g : Field} (hs : Fixed s g) (hne : .nn ≠ s ∧ .n ≠ s)
    (ctor : U12 → Opcode)
    (hraw : ∀ f labels, IsValue f → rawMatch m [g, f] labels = withValue .addr ctor (valueOf labels f))
    (hwf : ∀ a, (ctor a).WellFormed)
    (hword : ∀ (a : U12) v, a.toNat = v.nnn → (ctor a).word = hexValue (fill v t)) :
    RowOk ⟨t, m, [s, .addr]⟩ := by
  constructor
  · intro labels fields h
    cases h with
    | cons h1 h =>
      cases h with
      | @cons _ f _ _ h0 h =>
        cases h
        cases hs.2.1 _ h1
        have hf := shape_addr h0
        refine .value f .addr ctor (by simp) hf ?_ (by simp [KindOf, hne]) (hraw f labels hf) (fun _ v _ => hwf v)
        intro g' hg hv
        simp only [List.mem_cons, List.not_mem_nil, or_false] at hg
        rcases hg with rfl | rfl
        · exact absurd hv hs.1
        · rfl
  · intro labels fields v h hy
    cases h with
    | cons h1 h =>
      cases h with
      | @cons _ f _ _ h0 h =>
        cases h
        cases hs.2.2 _ _ _ h1
        cases h0 with
        | addr hd =>
          obtain ⟨hf, a, ha, hv⟩ := denotes_isValue hd
          exact ⟨ctor a, by rw [hraw f labels hf, hv]; rfl, hwf a, hword a v ha⟩

theorem rowOk_vx_nn {t m : Str} (ctor : U8 → U8 → Opcode)
    (hraw : ∀ r f labels, IsValue f → rawMatch m [.generalPurposeRegister r, f] labels =
      withValue .byte (fun v => ctor r (v.setWidth 8)) (valueOf labels f))
    (hwf : ∀ r b, r.toNat ≤ 15 → (ctor r b).WellFormed)
    (hword : ∀ (r b : U8) v, r.toNat = v.x → b.toNat = v.kk → (ctor r b).word = hexValue (fill v t)) :
    RowOk ⟨t, m, [.vx, .nn]⟩ := by
  constructor
  · intro labels fields h
    cases h with
    | cons h1 h =>
      cases h with
      | @cons _ f _ _ h0 h =>
        cases h
        cases h1 with
        | @vx r =>
          have hf := shape_nn h0
          exact .value f .byte _ (by simp) hf (by simp [IsValue]) (by simp [KindOf]) (hraw r f labels hf)
            (fun h v _ => hwf r _ (h r (by simp)))
  · intro labels fields v h hy
    cases h with
    | cons h1 h =>
      cases h with
      | @cons _ f _ _ h0 h =>
        cases h
        cases h1 with
        | @vx r hr hx =>
          cases h0 with
          | nn hd hle =>
            obtain ⟨hf, a, ha, hv⟩ := denotes_isValue hd
            refine ⟨ctor r (a.setWidth 8), ?_, hwf r _ (by omega), hword r _ v hr ?_⟩
            · rw [hraw r f labels hf, hv]
              exact if_pos (by omega)
            · rw [BitVec.toNat_setWidth]; omega

theorem rowOk_vx_vy_n {t m : Str} (ctor : U8 → U8 → U8 → Opcode)
    (hraw : ∀ r s f labels, IsValue f →
      rawMatch m [.generalPurposeRegister r, .generalPurposeRegister s, f] labels =
      withValue .nibble (fun v => ctor r s (BitVec.ofNat 8 v.toNat)) (valueOf labels f))
    (hwf : ∀ r s b, r.toNat ≤ 15 → s.toNat ≤ 15 → b.toNat ≤ 15 → (ctor r s b).WellFormed)
    (hword : ∀ (r s b : U8) v, r.toNat = v.x → s.toNat = v.y → b.toNat = v.n →
      (ctor r s b).word = hexValue (fill v t)) :
    RowOk ⟨t, m, [.vx, .vy, .n]⟩ := by
  constructor
  · intro labels fields h
    cases h with
    | cons h1 h =>
      cases h with
      | cons h2 h =>
        cases h with
        | @cons _ f _ _ h0 h =>
          cases h
          cases h1 with
          | @vx r =>
            cases h2 with
            | @vy s =>
              have hf := shape_n h0
              exact .value f .nibble _ (by simp) hf (by simp [IsValue]) (by simp [KindOf]) (hraw r s f labels hf)
                (fun h v hv => hwf r s _ (h r (by simp)) (h s (by simp)) (by
                  have := hv rfl; rw [BitVec.toNat_ofNat]; omega))
  · intro labels fields v h hy
    cases h with
    | cons h1 h =>
      cases h with
      | cons h2 h =>
        cases h with
        | @cons _ f _ _ h0 h =>
          cases h
          cases h1 with
          | @vx r hr hx =>
            cases h2 with
            | @vy s hs hy =>
              cases h0 with
              | n hd hle =>
                obtain ⟨hf, a, ha, hv⟩ := denotes_isValue hd
                have e : (BitVec.ofNat 8 a.toNat : U8).toNat = v.n := by rw [BitVec.toNat_ofNat]; omega
                refine ⟨ctor r s (BitVec.ofNat 8 a.toNat), ?_, hwf r s _ (by omega) (by omega) (by omega),
                  hword r s _ v hr hs e⟩
                rw [hraw r s f labels hf, hv]
                exact if_pos (by omega)

/-- Closing tactic for the words of templates. -/
local macro "wordtac" : tactic => `(tactic| (
  intros; simp [Opcode.word, fill, hexValue, fixedDigit] <;> omega))

local macro "valtac" : tactic => `(tactic| (
  intro f labels hf; cases f <;> simp only [IsValue] at hf <;> first | rfl | exact imm12LabelArm_eq _ _ _))

local macro "bytetac" : tactic => `(tactic| (
  intro r f labels hf; cases f <;> simp only [IsValue] at hf <;>
    first | exact imm8Arm_eq _ _ | exact imm8LabelArm_eq _ _ _))

theorem rowOk_table : ∀ row ∈ table, RowOk row := by
  obtain ⟨fi, find, fdt, fst, fk, ff, fb, fv0⟩ := fixed_cases
  simp only [table, List.forall_mem_cons]
  refine ⟨?_, ?_, ?_, ?_, ?_, ?_, ?_, ?_, ?_, ?_, ?_, ?_, ?_, ?_, ?_, ?_, ?_, ?_, ?_, ?_, ?_, ?_, ?_, ?_, ?_, ?_,
    ?_, ?_, ?_, ?_, ?_, ?_, ?_, ?_, ?_, ?_, ?_, ?_, by simp⟩
  · exact rowOk_nil .NOP (fun _ => rfl) trivial (fun _ => rfl)
  · exact rowOk_nil .CLS (fun _ => rfl) trivial (fun _ => rfl)
  · exact rowOk_nil .RET (fun _ => rfl) trivial (fun _ => rfl)
  · exact rowOk_addr .JP (by valtac) (fun _ => trivial) (by wordtac)
  · exact rowOk_addr .CALL (by valtac) (fun _ => trivial) (by wordtac)
  · exact rowOk_vx_nn .SE_IMMEDIATE (by bytetac) (fun _ _ h => h) (by wordtac)
  · exact rowOk_vx_nn .SNE_IMMEDIATE (by bytetac) (fun _ _ h => h) (by wordtac)
  · exact rowOk_vx_vy .SE_REGISTER (fun _ _ _ => rfl) (fun _ _ h h' => ⟨h, h'⟩) (by wordtac)
  · exact rowOk_vx_nn .LD_IMMEDIATE (by bytetac) (fun _ _ h => h) (by wordtac)
  · exact rowOk_vx_nn .ADD_IMMEDIATE (by bytetac) (fun _ _ h => h) (by wordtac)
  · exact rowOk_vx_vy .LD_REGISTER (fun _ _ _ => rfl) (fun _ _ h h' => ⟨h, h'⟩) (by wordtac)
  · exact rowOk_vx_vy .OR (fun _ _ _ => rfl) (fun _ _ h h' => ⟨h, h'⟩) (by wordtac)
  · exact rowOk_vx_vy .AND (fun _ _ _ => rfl) (fun _ _ h h' => ⟨h, h'⟩) (by wordtac)
  · exact rowOk_vx_vy .XOR (fun _ _ _ => rfl) (fun _ _ h h' => ⟨h, h'⟩) (by wordtac)
  · exact rowOk_vx_vy .ADD_REGISTER (fun _ _ _ => rfl) (fun _ _ h h' => ⟨h, h'⟩) (by wordtac)
  · exact rowOk_vx_vy .SUB (fun _ _ _ => rfl) (fun _ _ h h' => ⟨h, h'⟩) (by wordtac)
  · exact rowOk_vx (.SHR · 0) (fun _ _ => rfl) (fun _ h => ⟨h, by decide⟩) (by wordtac)
  · exact rowOk_vx_vy .SUBN (fun _ _ _ => rfl) (fun _ _ h h' => ⟨h, h'⟩) (by wordtac)
  · exact rowOk_vx (.SHL · 0) (fun _ _ => rfl) (fun _ h => ⟨h, by decide⟩) (by wordtac)
  · exact rowOk_vx_vy .SNE_REGISTER (fun _ _ _ => rfl) (fun _ _ h h' => ⟨h, h'⟩) (by wordtac)
  · exact rowOk_fixed_addr fi (by simp) .LD_I (by valtac) (fun _ => trivial) (by wordtac)
  · exact rowOk_fixed_addr fv0 (by simp) .JP_V0 (by valtac) (fun _ => trivial) (by wordtac)
  · exact rowOk_vx_nn .RND (by bytetac) (fun _ _ h => h) (by wordtac)
  · refine rowOk_vx_vy_n .DRW ?_ (fun _ _ _ h h' h'' => ⟨h, h', h''⟩) (by wordtac)
    intro r s f labels hf
    cases f <;> simp only [IsValue] at hf
    · rename_i v
      simp only [rawMatch, match3, if_pos, to4_eq, valueOf, withValue]
      split
      · rename_i h
        split at h <;> simp_all
      · rename_i h
        split at h <;> simp_all
    · rename_i name
      simp only [rawMatch, match3, if_pos, to4_eq, valueOf, withValue]
      cases resolveLabelWithMap name labels with
      | error e => rfl
      | ok v =>
        simp only []
        split
        · rename_i h
          split at h <;> simp_all
        · rename_i h
          split at h <;> simp_all
  · exact rowOk_vx .SE_K (fun _ _ => rfl) (fun _ h => h) (by wordtac)
  · exact rowOk_vx .SNE_K (fun _ _ => rfl) (fun _ h => h) (by wordtac)
  · exact rowOk_vx_fixed fdt .LD_X_DT (fun _ _ => rfl) (fun _ h => h) (by wordtac)
  · exact rowOk_vx_fixed fk .LD_X_K (fun _ _ => rfl) (fun _ h => h) (by wordtac)
  · exact rowOk_fixed_vx fdt .LD_DT_X (fun _ _ => rfl) (fun _ h => h) (by wordtac)
  · exact rowOk_fixed_vx fst .LD_ST_X (fun _ _ => rfl) (fun _ h => h) (by wordtac)
  · exact rowOk_fixed_vx fi .ADD_I_X (fun _ _ => rfl) (fun _ h => h) (by wordtac)
  · exact rowOk_fixed_vx ff .SPRITE_I (fun _ _ => rfl) (fun _ h => h) (by wordtac)
  · exact rowOk_fixed_vx fb .BCD_I (fun _ _ => rfl) (fun _ h => h) (by wordtac)
  · exact rowOk_fixed_vx find .SAVE_I (fun _ _ => rfl) (fun _ h => h) (by wordtac)
  · exact rowOk_vx_fixed find .RESTORE_I (fun _ _ => rfl) (fun _ h => h) (by wordtac)
  · exact rowOk_fixed_fixed fi find .DEREF_I (fun _ => rfl) trivial (fun _ => rfl)
  · exact rowOk_nil .TRAPRET (fun _ => rfl) trivial (fun _ => rfl)
  · exact rowOk_nil .TRAP (fun _ => rfl) trivial (fun _ => rfl)

end C8S
