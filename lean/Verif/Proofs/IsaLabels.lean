import Verif.Proofs.IsaSelect

namespace C8S

open Spec Instruction

section
variable {labels : LabelMap} {name : Str} {v : U12} (h : resolveLabelWithMap name labels = .ok v)
include h

theorem imm8LabelArm_of_resolve (ctor : U8 → Opcode) : imm8LabelArm ctor name labels = imm8Arm ctor v := by
  simp only [imm8LabelArm, h]

theorem imm12LabelArm_of_resolve (ctor : U12 → Opcode) :
    imm12LabelArm ctor name labels = .ok (some (ctor v)) := by
  simp only [imm12LabelArm, h]

theorem match1_label (m : Str) : match1 m (.identifier name) labels = match1 m (.numericLiteral v) labels := by
  simp only [match1, h]

omit h in
theorem match2_label0 (m : Str) (f : Field) :
    match2 m (.identifier name) f labels = match2 m (.numericLiteral v) f labels := by
  unfold match2
  cases f <;> rfl

theorem match2_label1 (m : Str) (f : Field) :
    match2 m f (.identifier name) labels = match2 m f (.numericLiteral v) labels := by
  unfold match2
  cases f <;> simp only [imm8LabelArm_of_resolve h, imm12LabelArm_of_resolve h]

omit h in
theorem match3_label0 (m : Str) (f g : Field) :
    match3 m (.identifier name) f g labels = match3 m (.numericLiteral v) f g labels := by
  unfold match3
  rfl

omit h in
theorem match3_label1 (m : Str) (f g : Field) :
    match3 m f (.identifier name) g labels = match3 m f (.numericLiteral v) g labels := by
  unfold match3
  cases f <;> rfl

theorem match3_label2 (m : Str) (f g : Field) :
    match3 m f g (.identifier name) labels = match3 m f g (.numericLiteral v) labels := by
  unfold match3
  cases f <;> cases g <;> simp only [h]

/-- A label operand is its value. -/
theorem rawMatch_label (m : Str) (pre post : List Field) :
    rawMatch m (pre ++ .identifier name :: post) labels = rawMatch m (pre ++ .numericLiteral v :: post) labels := by
  unfold rawMatch
  match pre, post with
  | [], [] => exact match1_label h m
  | [], [f] => exact match2_label0 m f
  | [], [f, g] => exact match3_label0 m f g
  | [], _ :: _ :: _ :: _ => rfl
  | [f], [] => exact match2_label1 h m f
  | [f], [g] => exact match3_label1 m f g
  | [_], _ :: _ :: _ => rfl
  | [f, g], [] => exact match3_label2 h m f g
  | [_, _], _ :: _ => rfl
  | [_, _, _], [] => rfl
  | [_, _, _], _ :: _ => rfl
  | _ :: _ :: _ :: _ :: _, _ => rfl

end

theorem lookup_eq_some_iff (labels : LabelMap) (name : Str) (v : U12) :
    labels.get name = some v ↔
      ∃ pre post, labels = pre ++ (name, v) :: post ∧ ∀ p ∈ pre, p.1 ≠ name := by
  unfold LabelMap.get
  induction labels with
  | nil => simp
  | cons p labels ih =>
    obtain ⟨k, w⟩ := p
    rw [List.lookup_cons]
    by_cases hk : name = k
    · subst hk
      rw [beq_self_eq_true]
      simp only [Option.some.injEq]
      constructor
      · rintro rfl; exact ⟨[], labels, rfl, by simp⟩
      · rintro ⟨pre, post, h, hne⟩
        cases pre with
        | nil => simp at h; exact h.1
        | cons q pre =>
          simp at h
          exact absurd (by rw [← h.1]) (hne q (by simp))
    · rw [beq_eq_false_iff_ne.2 hk]
      simp only [ih]
      constructor
      · rintro ⟨pre, post, rfl, hne⟩
        refine ⟨(k, w) :: pre, post, rfl, ?_⟩
        intro p hp
        rcases List.mem_cons.1 hp with rfl | hp
        · exact fun h => hk h.symm
        · exact hne p hp
      · rintro ⟨pre, post, h, hne⟩
        cases pre with
        | nil => simp at h; exact absurd h.1.1.symm hk
        | cons q pre =>
          simp at h
          exact ⟨pre, post, h.2, fun p hp => hne p (by simp [hp])⟩

/-- The value operands of an encoded instruction are fields of its word. -/
theorem encodes_value {labels : LabelMap} {v : Vars} {slots : List Slot} {fields : List Field} {f : Field} {n : Nat}
    (h : FitsAll labels v slots fields) (hf : f ∈ fields) (hn : Denotes labels f n) :
    (.addr ∈ slots ∧ n = v.nnn) ∨ (.nn ∈ slots ∧ n = v.kk ∧ n ≤ 255) ∨ (.n ∈ slots ∧ n = v.n ∧ n ≤ 15) := by
  have huniq : ∀ n', Denotes labels f n' → n = n' := by
    intro n' hn'
    obtain ⟨_, a, rfl, ha⟩ := denotes_isValue hn
    obtain ⟨_, b, rfl, hb⟩ := denotes_isValue hn'
    rw [ha] at hb
    injection hb with hb
    rw [hb]
  induction h with
  | nil => cases hf
  | cons h0 _ ih =>
    rcases List.mem_cons.1 hf with rfl | hf
    · cases h0 with
      | addr hd => exact .inl ⟨by simp, huniq _ hd⟩
      | nn hd hle => exact .inr (.inl ⟨by simp, huniq _ hd, by have := huniq _ hd; omega⟩)
      | n hd hle => exact .inr (.inr ⟨by simp, huniq _ hd, by have := huniq _ hd; omega⟩)
      | _ => cases hn
    · rcases ih hf with ⟨h1, h2⟩ | ⟨h1, h2⟩ | ⟨h1, h2⟩
      · exact .inl ⟨by simp [h1], h2⟩
      · exact .inr (.inl ⟨by simp [h1], h2⟩)
      · exact .inr (.inr ⟨by simp [h1], h2⟩)

theorem denotes_shape {labels : LabelMap} {f : Field} {n : Nat} (h : Denotes labels f n) :
    Shape .nn f ∧ Shape .n f ∧ Shape .addr f := by
  cases h with
  | literal v => exact ⟨.nnLit, .nLit, .addrLit⟩
  | label h => exact ⟨.nnId, .nId, .addrId⟩

theorem fitsAll_shapeAll {labels : LabelMap} {v : Vars} {slots : List Slot} {fields : List Field}
    (h : FitsAll labels v slots fields) : ShapeAll slots fields := by
  induction h with
  | nil => exact .nil
  | cons h0 _ ih =>
    refine .cons ?_ ih
    cases h0 with
    | nn hd _ => exact (denotes_shape hd).1
    | n hd _ => exact (denotes_shape hd).2.1
    | addr hd => exact (denotes_shape hd).2.2
    | _ => constructor

/-- The place of each value in the templates. -/
theorem template_value (v : Vars) : ∀ row ∈ table,
    (.addr ∈ row.slots → v.nnn < 4096 → hexValue (fill v row.template) % 4096 = v.nnn) ∧
    (.nn ∈ row.slots → v.kk ≤ 255 → hexValue (fill v row.template) % 256 = v.kk) ∧
    (.n ∈ row.slots → v.n ≤ 15 → hexValue (fill v row.template) % 16 = v.n) := by
  simp only [table, List.forall_mem_cons]
  refine ⟨?_, ?_, ?_, ?_, ?_, ?_, ?_, ?_, ?_, ?_, ?_, ?_, ?_, ?_, ?_, ?_, ?_, ?_, ?_, ?_, ?_, ?_, ?_, ?_, ?_, ?_,
    ?_, ?_, ?_, ?_, ?_, ?_, ?_, ?_, ?_, ?_, ?_, ?_, by simp⟩ <;>
    simp [fill, hexValue, fixedDigit] <;> omega

end C8S
