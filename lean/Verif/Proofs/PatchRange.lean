import Verif.Model.PatchRange
import Verif.Props.Skeleton

/-! Lemmas for C133. -/

namespace C8S

open Spec

theorem overlapsWith_aux (meet : DataRange → DataRange → Bool) (ranges pre : List DataRange) :
    ((List.range' pre.length ranges.length).flatMap fun i =>
      (List.range' (i + 1) ((pre ++ ranges).length - (i + 1))).filterMap fun j =>
        match (pre ++ ranges)[i]?, (pre ++ ranges)[j]? with
        | some lhs, some rhs => if meet lhs rhs then some (lhs, rhs) else none
        | _, _ => none) = pairsWhere meet ranges := by
  induction ranges generalizing pre with
  | nil => simp [pairsWhere]
  | cons a rest ih =>
    have h1 := ih (pre ++ [a])
    simp only [List.length_append, List.length_cons, List.length_nil, Nat.zero_add, List.append_assoc,
      List.singleton_append] at h1
    have h2 := filterMap_range' meet a rest (pre ++ [a])
    simp only [List.length_append, List.length_cons, List.length_nil, Nat.zero_add, List.append_assoc,
      List.singleton_append] at h2
    simp only [List.length_cons, List.range'_succ, List.flatMap_cons, pairsWhere, List.length_append]
    rw [h1, ← h2]
    congr 1
    have e : pre.length + (rest.length + 1) - (pre.length + 1) = rest.length := by omega
    rw [e]
    congr 1
    funext j
    rw [List.getElem?_append_right (Nat.le_refl _), Nat.sub_self, List.getElem?_cons_zero]
    cases (pre ++ a :: rest)[j]? <;> rfl

theorem overlapsWith_eq (meet : DataRange → DataRange → Bool) (ranges : List DataRange) :
    overlapsWith meet ranges = pairsWhere meet ranges := by
  have := overlapsWith_aux meet ranges []
  unfold overlapsWith
  rw [List.range_eq_range']
  exact this

/-- A test that is right about two ranges below the last address is that of the code there. -/
theorem meet_eq {meet : DataRange → DataRange → Bool} (hm : ∀ r s, meet r s = true ↔ Shares r s) {r s : DataRange}
    (hr : rangeEnd r < 4096) (hs : rangeEnd s < 4096) : meet r s = r.intersects s := by
  rw [Bool.eq_iff_iff, hm, intersects_iff_of_lt hr hs]

theorem overlapsWith_low {meet : DataRange → DataRange → Bool} (hm : ∀ r s, meet r s = true ↔ Shares r s)
    {ranges : List DataRange} (h : ∀ r ∈ ranges, rangeEnd r < 4096) : overlapsWith meet ranges = findOverlappingRanges ranges := by
  rw [overlapsWith_eq, findOverlapping_eq_pairs]
  exact pairsWhere_congr fun a ha b hb => meet_eq hm (h a ha) (h b hb)

theorem ihexWith_low {meet : DataRange → DataRange → Bool} (hm : ∀ r s, meet r s = true ↔ Shares r s)
    {ranges : List DataRange} (h : ∀ r ∈ ranges, rangeEnd r < 4096) :
    ihexWith meet ranges = ihexRepresentationOfDataRanges ranges := by
  unfold ihexWith ihexRepresentationOfDataRanges
  rw [overlapsWith_low hm h]

theorem overlapsWith_nil {meet : DataRange → DataRange → Bool} (hm : ∀ r s, meet r s = true ↔ Shares r s)
    (ranges : List DataRange) : overlapsWith meet ranges = [] ↔ ((image ranges).map Prod.fst).Nodup := by
  rw [overlapsWith_eq, pairsWhere_eq_nil, image_nodup]
  constructor
  · intro h
    refine h.imp fun {a b} hab hs => ?_
    rw [(hm a b).2 hs] at hab
    cases hab
  · intro h
    refine h.imp fun {a b} hab => ?_
    cases e : meet a b with
    | false => rfl
    | true => exact (hab ((hm a b).1 e)).elim

end C8S
