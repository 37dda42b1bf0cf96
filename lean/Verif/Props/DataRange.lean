import Verif.Proofs.Overlap

/-
Properties C38, C39, C40 of data ranges.
-/

namespace C8S

open Spec

/-- The ranges the API can build: a new range, then any sequence of `append` calls (accepted or refused). -/
inductive Built : DataRange → Prop where
  | new (start : U12) : Built (DataRange.new start)
  | append {r r' : DataRange} {data : List U8} {accepted : Bool} :
    Built r → r.append data = .ret (accepted, r') → Built r'

/-- C38 (reachability): the ranges the API can build are exactly those inside the address space. -/
theorem C38_built_iff_inMemory (r : DataRange) : Built r ↔ InMemory r := by
  constructor
  · intro h
    induction h with
    | new start =>
      have := start.isLt
      simp [InMemory, rangeEnd, DataRange.new, memorySize]
      omega
    | @append r r' data accepted _ happ ih =>
      rw [append_eq ih] at happ
      split at happ
      · injection happ with happ
        injection happ with _ happ
        subst happ
        simp only [InMemory, rangeEnd, List.length_append] at *
        omega
      · injection happ with happ
        injection happ with _ happ
        subst happ
        exact ih
  · intro h
    have h0 : Built (DataRange.new r.startAddress) := .new _
    have h1 : InMemory (DataRange.new r.startAddress) := by
      have := r.startAddress.isLt
      simp [InMemory, rangeEnd, DataRange.new, memorySize]
      omega
    have h2 := append_eq h1 r.data
    rw [if_pos (by simpa [InMemory, rangeEnd, DataRange.new] using h)] at h2
    exact .append h0 h2

example : InMemory ⟨0xFFE, [1, 2]⟩ ∧ ¬ InMemory ⟨0xFFE, [1, 2, 3]⟩ := by decide

/-- C38: on every range the API can build, the remaining capacity is exactly what is left of the 4096 bytes
(no underflow), and appending succeeds exactly when the data fits, adding exactly the data at the end;
otherwise the range is unchanged. -/
theorem C38_append (r : DataRange) (h : Built r) (data : List U8) :
    rangeEnd r ≤ 4096 ∧
    r.bytesRemaining = .ret (4096 - rangeEnd r) ∧
    (rangeEnd r + data.length ≤ 4096 → r.append data = .ret (true, ⟨r.startAddress, r.data ++ data⟩)) ∧
    (4096 < rangeEnd r + data.length → r.append data = .ret (false, r)) := by
  have hm := (C38_built_iff_inMemory r).1 h
  refine ⟨hm, bytesRemaining_eq hm, fun hf => ?_, fun hf => ?_⟩
  · rw [append_eq hm, if_pos (show _ ≤ memorySize from hf)]
  · rw [append_eq hm, if_neg (by simp only [memorySize]; omega)]

example : Built ⟨0xFFE, [1, 2]⟩ := (C38_built_iff_inMemory _).2 (by decide)
example : (⟨0xFFE, [1]⟩ : DataRange).append [2] = .ret (true, ⟨0xFFE, [1, 2]⟩) := by decide
example : (⟨0xFFE, [1]⟩ : DataRange).append [2, 3] = .ret (false, ⟨0xFFE, [1]⟩) := by decide

/-- C39, full claim: "ranges intersect exactly when they share an address", for all ranges the API can build. -/
def C39_claim : Prop := ∀ r s : DataRange, Built r → Built s → (r.intersects s = true ↔ Shares r s)

/-- C39 is false of the code: two ranges sharing address $FFF are not reported. -/
theorem C39_claim_false : ¬ C39_claim := by
  intro h
  have hr : Built ⟨0xFFF, [0]⟩ := (C38_built_iff_inMemory _).2 (by decide)
  have := (h _ _ hr hr).2 ⟨0xFFF, ⟨by decide, by decide⟩, by decide, by decide⟩
  exact absurd this (by decide)

/-- C39, what holds: for ranges the API can build, intersection is reported exactly when they share an address
and neither reaches the last address $FFF; the report is symmetric. Missing from the full claim: ranges that
reach $FFF, for which the claim is false (`C39_claim_false`). -/
theorem C39_intersects_partial (r s : DataRange) (hr : Built r) (hs : Built s) :
    (r.intersects s = true ↔ Shares r s ∧ ¬ Occupies r 0xFFF ∧ ¬ Occupies s 0xFFF) ∧
    r.intersects s = s.intersects r := by
  refine ⟨?_, ?_⟩
  · have hr := (C38_built_iff_inMemory r).1 hr
    have hs := (C38_built_iff_inMemory s).1 hs
    have := r.startAddress.isLt
    have := s.startAddress.isLt
    by_cases h1 : rangeEnd r < 4096
    · by_cases h2 : rangeEnd s < 4096
      · rw [intersects_iff_of_lt h1 h2]
        simp only [Occupies]
        exact ⟨fun h => ⟨h, by omega, by omega⟩, fun h => h.1⟩
      · have h3 : s.addressRange.2.toNat = 0 := by
          rw [addressRange_end]
          simp only [InMemory, memorySize] at hs
          omega
        simp only [DataRange.intersects, h3, decide_eq_true_eq]
        constructor
        · intro h; omega
        · rintro ⟨⟨a, _, ha⟩, _, h⟩
          simp only [Occupies] at *
          omega
    · have h3 : r.addressRange.2.toNat = 0 := by
        rw [addressRange_end]
        simp only [InMemory, memorySize] at hr
        omega
      simp only [DataRange.intersects, h3, decide_eq_true_eq]
      constructor
      · intro h; omega
      · rintro ⟨⟨a, ha, _⟩, h, _⟩
        simp only [Occupies] at *
        omega
  · simp only [DataRange.intersects, Nat.max_comm, Nat.min_comm]

example : Shares ⟨0x200, [1, 2, 3]⟩ ⟨0x202, [4]⟩ ∧ ¬ Occupies ⟨0x200, [1, 2, 3]⟩ 0xFFF ∧
    ¬ Occupies ⟨0x202, [4]⟩ 0xFFF := ⟨by decide, by simp [Occupies, rangeEnd], by simp [Occupies, rangeEnd]⟩

/-- C40: the overlap listing is the list of pairs at distinct positions `i < j` whose ranges intersect, each
once, in lexicographic order of positions. -/
theorem C40_listing (ranges : List DataRange) :
    findOverlappingRanges ranges = pairsWhere DataRange.intersects ranges :=
  findOverlapping_eq_pairs ranges

example : findOverlappingRanges [⟨0, [1, 2]⟩, ⟨1, [3]⟩, ⟨9, [4]⟩] = [(⟨0, [1, 2]⟩, ⟨1, [3]⟩)] := by decide

/-- C40, membership: a pair is listed exactly when two positions `i < j` hold it and the ranges intersect. -/
theorem C40_mem (ranges : List DataRange) (a b : DataRange) :
    (a, b) ∈ findOverlappingRanges ranges ↔
      ∃ i j : Nat, i < j ∧ ranges[i]? = some a ∧ ranges[j]? = some b ∧ a.intersects b = true := by
  rw [findOverlapping_eq_pairs]
  exact mem_pairsWhere

example : (⟨0, [1, 2]⟩, ⟨1, [3]⟩) ∈ findOverlappingRanges [⟨0, [1, 2]⟩, ⟨9, [4]⟩, ⟨1, [3]⟩] :=
  (C40_mem _ _ _).2 ⟨0, 2, by decide, rfl, rfl, by decide⟩

/-- C40, for ranges that stay below $FFF: the listing is empty exactly when no two ranges share an address. -/
theorem C40_empty_iff (ranges : List DataRange) (h : ∀ r ∈ ranges, rangeEnd r < 4096) :
    findOverlappingRanges ranges = [] ↔ ranges.Pairwise fun a b => ¬ Shares a b := by
  rw [findOverlapping_eq_pairs, pairsWhere_eq_nil]
  constructor
  · intro hp
    refine hp.imp_of_mem fun {a b} ha hb hab hs => ?_
    rw [(intersects_iff_of_lt (h a ha) (h b hb)).2 hs] at hab
    exact Bool.noConfusion hab
  · intro hp
    refine hp.imp_of_mem fun {a b} ha hb hab => ?_
    rw [← Bool.not_eq_true]
    exact fun hs => hab ((intersects_iff_of_lt (h a ha) (h b hb)).1 hs)

example : findOverlappingRanges [⟨0, [1, 2, 3]⟩, ⟨8, [1]⟩, ⟨2, [4, 5]⟩, ⟨1, [6]⟩]
    = [(⟨0, [1, 2, 3]⟩, ⟨2, [4, 5]⟩), (⟨0, [1, 2, 3]⟩, ⟨1, [6]⟩)] := by decide

end C8S
