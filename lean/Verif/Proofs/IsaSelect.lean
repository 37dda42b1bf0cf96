import Verif.Proofs.IsaComplete

namespace C8S

open Spec Instruction

def isRegister : Field → Bool
  | .generalPurposeRegister _ => true
  | _ => false

def isLiteralOrLabel : Field → Bool
  | .numericLiteral _ => true
  | .identifier _ => true
  | _ => false

def shapeB (s : Slot) (f : Field) : Bool :=
  match s with
  | .vx => isRegister f
  | .vy => isRegister f
  | .v0 => decide (f = .generalPurposeRegister 0)
  | .nn => isLiteralOrLabel f
  | .n => isLiteralOrLabel f
  | .addr => isLiteralOrLabel f
  | .i => decide (f = .indexRegister)
  | .indI => decide (f = .indexRegisterIndirect)
  | .dt => decide (f = .delayTimer)
  | .st => decide (f = .soundTimer)
  | .k => decide (f = .keypadRegister)
  | .f => decide (f = .sprite)
  | .b => decide (f = .bcd)

theorem isRegister_spec {f : Field} (h : isRegister f = true) : ∃ r, f = .generalPurposeRegister r := by
  cases f <;> first | exact ⟨_, rfl⟩ | cases h

theorem isLiteralOrLabel_spec {f : Field} (h : isLiteralOrLabel f = true) :
    (∃ v, f = .numericLiteral v) ∨ ∃ name, f = .identifier name := by
  cases f <;> first | exact .inl ⟨_, rfl⟩ | exact .inr ⟨_, rfl⟩ | cases h

theorem shapeB_shape {s : Slot} {f : Field} (h : shapeB s f = true) : Shape s f := by
  cases s
  case vx => obtain ⟨r, rfl⟩ := isRegister_spec h; exact .vx
  case vy => obtain ⟨r, rfl⟩ := isRegister_spec h; exact .vy
  case nn => obtain ⟨r, rfl⟩ | ⟨r, rfl⟩ := isLiteralOrLabel_spec h <;> constructor
  case n => obtain ⟨r, rfl⟩ | ⟨r, rfl⟩ := isLiteralOrLabel_spec h <;> constructor
  case addr => obtain ⟨r, rfl⟩ | ⟨r, rfl⟩ := isLiteralOrLabel_spec h <;> constructor
  case v0 => rw [of_decide_eq_true h]; exact .v0
  case i => rw [of_decide_eq_true h]; exact .i
  case indI => rw [of_decide_eq_true h]; exact .indI
  case dt => rw [of_decide_eq_true h]; exact .dt
  case st => rw [of_decide_eq_true h]; exact .st
  case k => rw [of_decide_eq_true h]; exact .k
  case f => rw [of_decide_eq_true h]; exact .f
  case b => rw [of_decide_eq_true h]; exact .b

def shapeAllB : List Slot → List Field → Bool
  | [], [] => true
  | s :: ss, f :: fs => shapeB s f && shapeAllB ss fs
  | _, _ => false

theorem shapeAllB_shapeAll : ∀ {ss : List Slot} {fs : List Field}, shapeAllB ss fs = true → ShapeAll ss fs
  | [], [], _ => .nil
  | s :: ss, f :: fs, h => by
    simp only [shapeAllB, Bool.and_eq_true] at h
    exact .cons (shapeB_shape h.1) (shapeAllB_shapeAll h.2)

def selectsB (m : Str) (fields : List Field) : Bool :=
  table.any fun row => decide (row.mnemonic = m) && shapeAllB row.slots fields

theorem selectsB_spec {m : Str} {fields : List Field} (h : selectsB m fields = true) :
    ∃ row ∈ table, row.mnemonic = m ∧ ShapeAll row.slots fields := by
  obtain ⟨row, hr, h⟩ := List.any_eq_true.1 h
  rw [Bool.and_eq_true] at h
  exact ⟨row, hr, of_decide_eq_true h.1, shapeAllB_shapeAll h.2⟩

/-- An instruction that is not reported as unmatched selects a row. -/
theorem rawMatch_selects {m : Str} {fields : List Field} {labels : LabelMap}
    (h : rawMatch m fields labels ≠ .ok none) : selectsB m fields = true := by
  unfold rawMatch at h
  split at h
  · simp only [match0] at h
    repeat' split at h
    all_goals first
      | exact absurd rfl h
      | (subst_vars; rfl)
  · simp only [match1] at h
    repeat' split at h
    all_goals first
      | exact absurd rfl h
      | (subst_vars; rfl)
  · rename_i f0 f1
    unfold match2 at h
    by_cases c_ld : m = "ld".toList
    · rw [if_pos c_ld] at h
      repeat' split at h
      all_goals first
        | exact absurd rfl h
        | (subst_vars; rfl)
    rw [if_neg c_ld] at h
    by_cases c_se : m = "se".toList
    · rw [if_pos c_se] at h
      repeat' split at h
      all_goals first
        | exact absurd rfl h
        | (subst_vars; rfl)
    rw [if_neg c_se] at h
    by_cases c_sne : m = "sne".toList
    · rw [if_pos c_sne] at h
      repeat' split at h
      all_goals first
        | exact absurd rfl h
        | (subst_vars; rfl)
    rw [if_neg c_sne] at h
    by_cases c_add : m = "add".toList
    · rw [if_pos c_add] at h
      repeat' split at h
      all_goals first
        | exact absurd rfl h
        | (subst_vars; rfl)
    rw [if_neg c_add] at h
    repeat' split at h
    all_goals first
      | exact absurd rfl h
      | (subst_vars; rfl)
  · simp only [match3] at h
    repeat' split at h
    all_goals first
      | exact absurd rfl h
      | (subst_vars; rfl)
  · exact absurd rfl h

theorem rawMatch_of_selects {labels : LabelMap} {row : Row} {fields : List Field} (hr : row ∈ table)
    (hs : ShapeAll row.slots fields) : Outcome' labels row fields :=
  (rowOk_table row hr).1 labels fields hs

theorem withValue_ne_none {kind : Kind} {ctor : U12 → Opcode} {r : Except InstructionError U12} :
    withValue kind ctor r ≠ .ok none := by
  unfold withValue
  cases r with
  | error e => simp
  | ok v => cases kind <;> simp <;> split <;> simp

/-- Errors of value operands. -/
theorem withValue_error {kind : Kind} {ctor : U12 → Opcode} {labels : LabelMap} {f : Field} (hf : IsValue f)
    {e : InstructionError} :
    withValue kind ctor (valueOf labels f) = .error e ↔
      (∃ name, f = .identifier name ∧ labels.get name = none ∧ e = .unableToResolveLabel name) ∨
      ∃ n, Denotes labels f n ∧
        match kind with
        | .addr => False
        | .byte => 255 < n ∧ e = .expectingEightBitValue n
        | .nibble => 15 < n ∧ e = .expectingFourBitValue n := by
  cases h : valueOf labels f with
  | error e' =>
    simp only [withValue, Except.error.injEq]
    have h' := valueOf_error.1 h
    obtain ⟨name, rfl, h1, rfl⟩ := h'
    constructor
    · intro he; exact .inl ⟨name, rfl, h1, he.symm⟩
    · rintro (⟨name', he, _, rfl⟩ | ⟨n, hd, _⟩)
      · injection he with he; rw [he]
      · obtain ⟨_, v, _, hv⟩ := denotes_isValue hd
        rw [h] at hv
        cases hv
  | ok v =>
    have hd := (valueOf_ok hf).1 h
    have huniq : ∀ n, Denotes labels f n → n = v.toNat := by
      intro n hn
      obtain ⟨_, v', rfl, hv⟩ := denotes_isValue hn
      rw [h] at hv
      injection hv with hv
      rw [hv]
    have hno : ∀ name, f = .identifier name → labels.get name ≠ none := by
      rintro name rfl hn
      rw [valueOf_error.2 ⟨name, rfl, hn, rfl⟩] at h
      cases h
    simp only [withValue]
    cases kind with
    | addr =>
      constructor
      · intro he; cases he
      · rintro (⟨name, h1, h2, _⟩ | ⟨_, _, h⟩)
        · exact absurd h2 (hno name h1)
        · exact h.elim
    | byte =>
      simp only []
      split
      · constructor
        · intro he; cases he
        · rintro (⟨name, h1, h2, _⟩ | ⟨n, hn, h3, _⟩)
          · exact absurd h2 (hno name h1)
          · have := huniq n hn; omega
      · constructor
        · intro he; injection he with he; exact .inr ⟨_, hd, by omega, he.symm⟩
        · rintro (⟨name, h1, h2, _⟩ | ⟨n, hn, h3, rfl⟩)
          · exact absurd h2 (hno name h1)
          · rw [huniq n hn]
    | nibble =>
      simp only []
      split
      · constructor
        · intro he; cases he
        · rintro (⟨name, h1, h2, _⟩ | ⟨n, hn, h3, _⟩)
          · exact absurd h2 (hno name h1)
          · have := huniq n hn; omega
      · constructor
        · intro he; injection he with he; exact .inr ⟨_, hd, by omega, he.symm⟩
        · rintro (⟨name, h1, h2, _⟩ | ⟨n, hn, h3, rfl⟩)
          · exact absurd h2 (hno name h1)
          · rw [huniq n hn]

theorem row_lower : ∀ row ∈ table, toLowercase row.mnemonic = row.mnemonic := by decide

theorem sameWord_row {m : Str} {row : Row} (h : row ∈ table) :
    SameWord m row.mnemonic ↔ toLowercase m = row.mnemonic := by
  rw [← toLowercase_eq_iff, row_lower row h]

/-- The whole function in terms of `rawMatch`. -/
theorem from_eq (m : Str) (fields : List Field) (labels : LabelMap) :
    fromMnemonicAndParameters m fields labels =
      match rawMatch (toLowercase m) fields labels with
      | .error e => .error e
      | .ok (some op) => .ok op
      | .ok none => .error (noMatchingFormat m fields) := rfl

theorem from_ok_iff {m : Str} {fields : List Field} {labels : LabelMap} {op : Opcode} :
    fromMnemonicAndParameters m fields labels = .ok op ↔ rawMatch (toLowercase m) fields labels = .ok (some op) := by
  rw [from_eq]
  split <;> simp_all

theorem say_nil : say [] = [] := rfl

theorem say_cons (s : Str) (r : List Str) : say (s :: r) = s ++ say r := rfl

theorem shownOperand_eq (f : Field) : shownOperand f = f.display := by
  cases f with
  | numericLiteral v =>
    show say [_, _] = _ ++ _
    simp only [say_cons, say_nil, List.append_nil]
    rfl
  | generalPurposeRegister r =>
    show say [_, _] = _ ++ _
    simp only [say_cons, say_nil, List.append_nil]
    rfl
  | identifier name =>
    show say [_, _] = _ ++ _
    simp only [say_cons, say_nil, List.append_nil]
  | _ => rfl

theorem shownOperands_eq (fs : List Field) : shownOperands fs = joinWith ", ".toList (fs.map Field.display) := by
  induction fs with
  | nil => rfl
  | cons f fs ih =>
    cases fs with
    | nil => simp [shownOperands, joinWith, shownOperand_eq]
    | cons g fs =>
      rw [shownOperands, ih, shownOperand_eq]
      simp [joinWith, say_cons, say_nil]

theorem noMatch_eq (m : Str) (fields : List Field) : noMatchingFormat m fields = .noMatchingFormat m
    (if fields = [] then none else some (shownOperands fields)) := by
  rw [shownOperands_eq]
  unfold noMatchingFormat
  simp only [List.length_eq_zero_iff]

theorem isValue_identifier (name : Str) : IsValue (.identifier name) := trivial

/-- Errors, both ways. -/
theorem from_error_iff {m : Str} {fields : List Field} {labels : LabelMap} {e : InstructionError} :
    fromMnemonicAndParameters m fields labels = .error e ↔ InstructionFails labels m fields e := by
  constructor
  · intro h
    by_cases hn : rawMatch (toLowercase m) fields labels = .ok none
    · rw [from_eq, hn] at h
      injection h with h
      rw [← h, noMatch_eq]
      refine .noMatch fun row ⟨hr, hm, hs⟩ => ?_
      rw [sameWord_row hr] at hm
      rw [hm] at hn
      cases rawMatch_of_selects (labels := labels) hr hs with
      | plain op _ h _ => rw [hn] at h; cases h
      | value f kind ctor _ _ _ _ h _ => rw [hn] at h; exact withValue_ne_none h.symm
    · obtain ⟨row, hr, hm, hs⟩ := selectsB_spec (rawMatch_selects hn)
      have hsel : Selects row m fields := ⟨hr, (sameWord_row hr).2 hm.symm, hs⟩
      rw [from_eq, ← hm] at h
      cases rawMatch_of_selects (labels := labels) hr hs with
      | plain op _ h' _ => rw [h'] at h; cases h
      | value f kind ctor hmem hval huniq hkind h' _ =>
        rw [h'] at h
        have he : withValue kind ctor (valueOf labels f) = .error e := by
          split at h <;> rename_i hw
          · rw [hw]; exact congrArg _ (Except.error.inj h)
          · cases h
          · exact absurd hw withValue_ne_none
        rcases (withValue_error hval).1 he with ⟨name, rfl, h1, rfl⟩ | ⟨n, hd, hk⟩
        · exact .unresolved hsel hmem h1
        · cases kind with
          | addr => exact hk.elim
          | byte => obtain ⟨h1, rfl⟩ := hk; exact .eightBit hsel hkind.1 hmem hd h1
          | nibble => obtain ⟨h1, rfl⟩ := hk; exact .fourBit hsel hkind.2 hmem hd h1
  · intro h
    have key : ∀ row, Selects row m fields →
        (∃ f ∈ fields, IsValue f ∧ ∀ kind, KindOf row.slots kind → ∀ ctor,
          withValue kind ctor (valueOf labels f) = .error e) →
        fromMnemonicAndParameters m fields labels = .error e := by
      rintro row ⟨hr, hm, hs⟩ ⟨f, hf, hval, hw⟩
      rw [from_eq, (sameWord_row hr).1 hm]
      cases rawMatch_of_selects (labels := labels) hr hs with
      | plain op hnv h _ => exact absurd hval (hnv f hf)
      | value f' kind ctor hmem hval' huniq hkind h' _ =>
        obtain rfl := huniq f hf hval
        rw [h', hw kind hkind ctor]
    cases h with
    | unresolved hsel hmem hn =>
      refine key _ hsel ⟨_, hmem, trivial, fun kind _ ctor => (withValue_error (isValue_identifier _)).2 (.inl ⟨_, rfl, hn, rfl⟩)⟩
    | eightBit hsel hslot hmem hd hlt =>
      have hval := (denotes_isValue hd).1
      refine key _ hsel ⟨_, hmem, hval, fun kind hk ctor => (withValue_error hval).2 (.inr ⟨_, hd, ?_⟩)⟩
      cases kind with
      | addr => exact hk.1 hslot
      | byte => exact ⟨hlt, rfl⟩
      | nibble => exact (hk.1 hslot).elim
    | fourBit hsel hslot hmem hd hlt =>
      have hval := (denotes_isValue hd).1
      refine key _ hsel ⟨_, hmem, hval, fun kind hk ctor => (withValue_error hval).2 (.inr ⟨_, hd, ?_⟩)⟩
      cases kind with
      | addr => exact hk.2 hslot
      | byte => exact (hk.2 hslot).elim
      | nibble => exact ⟨hlt, rfl⟩
    | noMatch hno =>
      by_cases hn : rawMatch (toLowercase m) fields labels = .ok none
      · rw [from_eq, hn, ← noMatch_eq]
      · obtain ⟨row, hr, hm, hs⟩ := selectsB_spec (rawMatch_selects hn)
        exact absurd ⟨hr, (sameWord_row hr).2 hm.symm, hs⟩ (hno row)

/-- Instructions on the registers the parser produces have a word. -/
theorem wellFormed_of_ok {labels : LabelMap} {m : Str} {fields : List Field} {op : Opcode}
    (hr : FourBitRegisters fields) (h : fromMnemonicAndParameters m fields labels = .ok op) :
    op.WellFormed := by
  have h := from_ok_iff.1 h
  obtain ⟨row, hrow, hm, hs⟩ := selectsB_spec (rawMatch_selects (by rw [h]; simp))
  rw [← hm] at h
  cases rawMatch_of_selects (labels := labels) hrow hs with
  | plain op' _ h' hwf =>
    rw [h] at h'
    injection h' with h'
    injection h' with h'
    rw [h']
    exact hwf hr
  | value f kind ctor hmem hval huniq hkind h' hwf =>
    rw [h] at h'
    unfold withValue at h'
    split at h'
    · cases h'
    · rename_i v _
      have hwf := hwf hr v
      cases kind with
      | addr => cases h'; exact hwf (by simp)
      | byte =>
        simp only [] at h'
        split at h'
        · cases h'; exact hwf (by simp)
        · cases h'
      | nibble =>
        simp only [] at h'
        split at h'
        · cases h'; exact hwf (fun _ => by assumption)
        · cases h'

/-- Instruction words, both ways. -/
theorem encodes_iff {m : Str} {fields : List Field} {labels : LabelMap} {w : U16} :
    (∃ op, fromMnemonicAndParameters m fields labels = .ok op ∧ op.asInstruction = .ret w) ↔
      Encodes labels m fields w.toNat := by
  constructor
  · rintro ⟨op, h, hw⟩
    have hwf : op.WellFormed := by
      refine Classical.byContradiction fun hn => ?_
      rw [Opcode.asInstruction_panic hn] at hw
      cases hw
    rw [Opcode.asInstruction_eq hwf] at hw
    injection hw with hw
    obtain ⟨hm, hfit, hy⟩ := rawMatch_sound (from_ok_iff.1 h)
    refine ⟨op.row, op.row_mem, op.vars, (sameWord_row op.row_mem).2 hm, hfit hwf, hy, ?_⟩
    rw [templateWord, ← hw, BitVec.toNat_ofNat, Nat.mod_eq_of_lt (Opcode.word_lt hwf)]
  · rintro ⟨row, hr, v, hm, hfit, hy, hw⟩
    obtain ⟨op, h, hwf, hword⟩ := (rowOk_table row hr).2 labels fields v hfit hy
    refine ⟨op, from_ok_iff.2 ?_, ?_⟩
    · rw [(sameWord_row hr).1 hm, h]
    · rw [Opcode.asInstruction_eq hwf, hword, ← hw, BitVec.ofNat_toNat, BitVec.setWidth_eq]

end C8S
