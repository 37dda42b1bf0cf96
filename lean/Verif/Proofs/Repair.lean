import Verif.Spec.Repair
import Verif.Props.Crash
import Verif.Props.Provenance

/- Helper lemmas for Verif.Props.Repair. -/

namespace C8S

open Spec

theorem faulty_location {pre : List Node} {n : Node} {e : SemanticError} (h : Faulty pre n e) :
    faultLocation e = nodeLocation n ∧ ¬ InstructionFault e := by
  cases h <;> exact ⟨rfl, fun h => h⟩

/-- Lists whose elements have different locations have at most one element at a location. -/
theorem own_unique {p p' q q' : List Node} {n n' : Node} (ho : OwnPlaces (p ++ n :: q)) (h : p ++ n :: q = p' ++ n' :: q')
    (hl : nodeLocation n = nodeLocation n') : p = p' ∧ n = n' ∧ q = q' := by
  induction p generalizing p' with
  | nil =>
    cases p' with
    | nil => cases h; exact ⟨rfl, rfl, rfl⟩
    | cons x r =>
      cases h
      have := (List.nodup_cons.1 ho).1
      exact (this (by rw [hl]; simp)).elim
  | cons x p ih =>
    cases p' with
    | nil =>
      cases h
      have := (List.nodup_cons.1 ho).1
      exact (this (by rw [← hl]; simp)).elim
    | cons y r =>
      rw [List.cons_append, List.cons_append, List.cons.injEq] at h
      obtain ⟨rfl, h⟩ := h
      obtain ⟨rfl, rfl, rfl⟩ := ih (List.nodup_cons.1 ho).2 h
      exact ⟨rfl, rfl, rfl⟩

theorem report_layout {nodes : List Node} {e : SemanticError} (h : assemble nodes = .ret (.error e)) (hn : ¬ InstructionFault e) :
    ∃ pre n post, nodes = pre ++ n :: post ∧ Clean pre ∧ Faulty pre n e ∧ faultLocation e = nodeLocation n := by
  rcases (C104_error nodes e).1 h with ⟨pre, n, post, rfl, hc, hf⟩ | ⟨_, _, _, _, _, _, _, _, _, _, _, _, rfl⟩
  · exact ⟨pre, n, post, rfl, hc, hf, (faulty_location hf).1⟩
  · exact (hn trivial).elim

theorem report_instruction {nodes : List Node} {e : SemanticError} (h : assemble nodes = .ret (.error e)) (hn : InstructionFault e) :
    ∃ labels pre l m f post reason, nodes = pre ++ .instruction l m f :: post ∧ defineLabels nodes = .ok labels ∧
      (∀ l m f, .instruction l m f ∈ pre → ∃ w, Encodes labels m f w) ∧ InstructionFails labels m f reason ∧
      faultLocation e = l := by
  rcases (C104_error nodes e).1 h with ⟨pre, n, post, rfl, hc, hf⟩ | ⟨labels, pre, l, m, f, post, reason, hc, hl, he, hpre, hf, rfl⟩
  · exact ((faulty_location hf).2 hn).elim
  · obtain ⟨labels', hl'⟩ := defineLabels_of_clean hc
    have hcongr := labelsOf_congr hl (defineLabels_ok hl').2
    exact ⟨labels', pre, l, m, f, post, reason, he, hl', fun l m f hm => (hpre l m f hm).imp fun _ => encodes_congr hcongr,
      instructionFails_congr hcongr hf, rfl⟩

/-- The first pass does not look at mnemonics and operands. -/
theorem labels_instruction {l l' : Loc} {m m' : Str} {f f' : List Field} {post : List Node} {L : LabelMap} (pre : List Node) :
    ∀ k, pre.length ≤ k → ∀ cur lab, defineLabelsLoop (pre ++ .instruction l m f :: post) cur lab = .ok L →
      defineLabelsLoop (pre ++ .instruction l' m' f' :: post) cur lab = .ok L := by
  intro k
  induction k generalizing pre with
  | zero =>
    intro hk cur lab h
    cases pre with
    | cons => simp at hk
    | nil =>
      simp only [List.nil_append, defineLabelsLoop] at h ⊢
      cases hc : checkedAdd cur 2 with
      | none => rw [hc] at h; cases h
      | some c => rw [hc] at h; exact h
  | succ k ih =>
    intro hk cur lab h
    cases pre with
    | nil =>
      simp only [List.nil_append, defineLabelsLoop] at h ⊢
      cases hc : checkedAdd cur 2 with
      | none => rw [hc] at h; cases h
      | some c => rw [hc] at h; exact h
    | cons x r =>
      have hr : r.length ≤ k := by simpa using hk
      cases x with
      | directive dl name args =>
        simp only [List.cons_append, defineLabelsLoop] at h ⊢
        cases hd : Directive.fromIdentifierAndParameters name args with
        | error e => rw [hd] at h; cases h
        | ok d =>
          simp only [hd] at h ⊢
          cases hf : failableInto12 d.size with
          | none => simp only [hf] at h; cases h
          | some s =>
            simp only [hf] at h ⊢
            cases hc : checkedAdd cur s with
            | none => simp only [hc] at h; cases h
            | some c =>
              simp only [hc] at h ⊢
              cases d with
              | org a => exact ih r hr _ _ h
              | db b => exact ih r hr _ _ h
              | equ v => cases h
      | instruction il im fs =>
        simp only [List.cons_append, defineLabelsLoop] at h ⊢
        cases hc : checkedAdd cur 2 with
        | none => rw [hc] at h; cases h
        | some c => rw [hc] at h; exact ih r hr _ _ h
      | label ll name =>
        have hpk : peekConstant (r ++ .instruction l' m' f' :: post) = peekConstant (r ++ .instruction l m f :: post) := by
          cases r with
          | nil => rfl
          | cons y r => cases y <;> rfl
        rw [List.cons_append] at h ⊢
        unfold defineLabelsLoop at h ⊢
        simp only [] at h ⊢
        rw [hpk]
        by_cases hg : (lab.get name).isSome = true
        · rw [if_pos hg] at h; cases h
        · rw [if_neg hg] at h ⊢
          cases r with
          | nil => exact ih [] (by simp) _ _ h
          | cons y r =>
            cases hp : peekConstant (y :: r ++ .instruction l m f :: post) with
            | none =>
              rw [hp] at h
              exact ih (y :: r) hr _ _ h
            | some v =>
              rw [hp] at h
              exact ih r (by simp at hr; omega) _ _ h

end C8S
