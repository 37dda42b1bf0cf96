import Verif.Proofs.DataRange
import Verif.Spec.Overlap

namespace C8S

open Spec

theorem filterMap_range' (p : DataRange → DataRange → Bool) (a : DataRange) (ranges pre : List DataRange) :
    ((List.range' pre.length ranges.length).filterMap fun j =>
      match (pre ++ ranges)[j]? with
      | some rhs => if p a rhs then some (a, rhs) else none
      | none => none) = (ranges.filter (p a)).map fun b => (a, b) := by
  induction ranges generalizing pre with
  | nil => simp
  | cons b rest ih =>
    have := ih (pre ++ [b])
    simp only [List.length_append, List.length_cons, List.length_nil, Nat.zero_add, List.append_assoc,
      List.singleton_append] at this
    simp only [List.length_cons, List.range'_succ, List.filterMap_cons]
    rw [this]
    simp only [List.getElem?_append_right (Nat.le_refl _), Nat.sub_self, List.getElem?_cons_zero]
    by_cases h : p a b <;> simp [h]

theorem findOverlapping_aux (ranges pre : List DataRange) :
    ((List.range' pre.length ranges.length).flatMap fun i =>
      (List.range' (i + 1) ((pre ++ ranges).length - (i + 1))).filterMap fun j =>
        match (pre ++ ranges)[i]?, (pre ++ ranges)[j]? with
        | some lhs, some rhs => if lhs.intersects rhs then some (lhs, rhs) else none
        | _, _ => none) = pairsWhere DataRange.intersects ranges := by
  induction ranges generalizing pre with
  | nil => simp [pairsWhere]
  | cons a rest ih =>
    have h1 := ih (pre ++ [a])
    simp only [List.length_append, List.length_cons, List.length_nil, Nat.zero_add, List.append_assoc,
      List.singleton_append] at h1
    have h2 := filterMap_range' DataRange.intersects a rest (pre ++ [a])
    simp only [List.length_append, List.length_cons, List.length_nil, Nat.zero_add, List.append_assoc,
      List.singleton_append] at h2
    simp only [List.length_cons, List.range'_succ, List.flatMap_cons, pairsWhere, List.length_append]
    rw [h1, ← h2]
    congr 1
    have e : pre.length + (rest.length + 1) - (pre.length + 1) = rest.length := by omega
    rw [e]
    congr 1
    funext j
    rw [List.getElem?_append_right (Nat.le_refl _), Nat.sub_self, List.getElem?_cons_zero]
    cases (pre ++ a :: rest)[j]? <;> rfl

theorem findOverlapping_eq_pairs (ranges : List DataRange) :
    findOverlappingRanges ranges = pairsWhere DataRange.intersects ranges := by
  have := findOverlapping_aux ranges []
  unfold findOverlappingRanges
  rw [List.range_eq_range']
  exact this

theorem pairsWhere_congr {α : Type} {p q : α → α → Bool} {l : List α}
    (h : ∀ a ∈ l, ∀ b ∈ l, p a b = q a b) : pairsWhere p l = pairsWhere q l := by
  induction l with
  | nil => rfl
  | cons a rest ih =>
    simp only [pairsWhere]
    rw [ih fun x hx y hy => h x (by simp [hx]) y (by simp [hy])]
    congr 2
    exact List.filter_congr fun b hb => h a (by simp) b (by simp [hb])

theorem pairsWhere_eq_nil {α : Type} {p : α → α → Bool} {l : List α} :
    pairsWhere p l = [] ↔ l.Pairwise fun a b => p a b = false := by
  induction l with
  | nil => simp [pairsWhere]
  | cons a rest ih =>
    simp only [pairsWhere, List.append_eq_nil_iff, List.map_eq_nil_iff, List.filter_eq_nil_iff, ih,
      List.pairwise_cons, Bool.not_eq_true]

theorem mem_pairsWhere {α : Type} {p : α → α → Bool} {l : List α} {a b : α} :
    (a, b) ∈ pairsWhere p l ↔
      ∃ i j : Nat, i < j ∧ l[i]? = some a ∧ l[j]? = some b ∧ p a b = true := by
  induction l with
  | nil => simp [pairsWhere]
  | cons c rest ih =>
    simp only [pairsWhere, List.mem_append, ih, List.mem_map, List.mem_filter, Prod.mk.injEq]
    constructor
    · rintro (⟨d, ⟨hd, hp⟩, rfl, rfl⟩ | ⟨i, j, hij, hi, hj, hp⟩)
      · obtain ⟨j, hj⟩ := List.mem_iff_getElem?.1 hd
        exact ⟨0, j + 1, by omega, by simp, by simpa using hj, hp⟩
      · exact ⟨i + 1, j + 1, by omega, by simpa using hi, by simpa using hj, hp⟩
    · rintro ⟨i, j, hij, hi, hj, hp⟩
      cases j with
      | zero => omega
      | succ j =>
        simp only [List.getElem?_cons_succ] at hj
        cases i with
        | zero =>
          simp only [List.getElem?_cons_zero, Option.some.injEq] at hi
          subst hi
          exact .inl ⟨b, ⟨List.mem_iff_getElem?.2 ⟨j, hj⟩, hp⟩, rfl, rfl⟩
        | succ i =>
          simp only [List.getElem?_cons_succ] at hi
          exact .inr ⟨i, j, by omega, hi, hj, hp⟩

end C8S
