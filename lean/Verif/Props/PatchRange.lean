import Verif.Proofs.PatchRange

/- Property C133: a repair of the overlap check. -/

namespace C8S

open Spec

/-- C133: with the test of the code, the listing and the writer are those of the code. -/
theorem C133_code (ranges : List DataRange) :
    overlapsWith DataRange.intersects ranges = findOverlappingRanges ranges ∧
    ihexWith DataRange.intersects ranges = ihexRepresentationOfDataRanges ranges := ⟨rfl, rfl⟩

example : overlapsWith DataRange.intersects [⟨0x200, [1, 2]⟩, ⟨0x201, [3]⟩] = [(⟨0x200, [1, 2]⟩, ⟨0x201, [3]⟩)] := by decide

/-- C133: with the ends not reduced to twelve bits, ranges intersect exactly when they share an address. -/
theorem C133_exact (r s : DataRange) : r.intersectsWide s = true ↔ Shares r s := by
  rw [shares_iff]
  exact decide_eq_true_iff

example : (⟨0xFFF, [0]⟩ : DataRange).intersectsWide ⟨0xFFE, [1, 2]⟩ = true ∧
    (⟨0xFFF, [0]⟩ : DataRange).intersects ⟨0xFFE, [1, 2]⟩ = false := by decide

/-- C133: on the ranges the API can build, an exact test differs from that of the code exactly when an address is shared and
one of the ranges reaches the last address. -/
theorem C133_differs (meet : DataRange → DataRange → Bool) (hm : ∀ r s, meet r s = true ↔ Shares r s) (r s : DataRange)
    (hr : Built r) (hs : Built s) :
    meet r s ≠ r.intersects s ↔ Shares r s ∧ (Occupies r 0xFFF ∨ Occupies s 0xFFF) := by
  have h := (C39_intersects_partial r s hr hs).1
  have h' := hm r s
  by_cases hsh : Shares r s
  · rw [h'.2 hsh]
    constructor
    · intro hne
      refine ⟨hsh, Classical.byContradiction fun hn => hne ?_⟩
      exact (h.2 ⟨hsh, fun ho => hn (.inl ho), fun ho => hn (.inr ho)⟩).symm
    · rintro ⟨_, ho⟩ e
      have := h.1 e.symm
      rcases ho with ho | ho
      · exact this.2.1 ho
      · exact this.2.2 ho
  · have e1 : meet r s = false := Bool.eq_false_iff.2 fun e => hsh (h'.1 e)
    have e2 : r.intersects s = false := Bool.eq_false_iff.2 fun e => hsh (h.1 e).1
    rw [e1, e2]
    exact ⟨fun hne => (hne rfl).elim, fun hx => (hsh hx.1).elim⟩

example : (⟨0xFFE, [1, 2]⟩ : DataRange).intersectsWide ⟨0xFFE, [1]⟩ ≠ (⟨0xFFE, [1, 2]⟩ : DataRange).intersects ⟨0xFFE, [1]⟩ :=
  (C133_differs _ C133_exact _ _ ((C38_built_iff_inMemory _).2 (by decide)) ((C38_built_iff_inMemory _).2 (by decide))).2
    ⟨⟨0xFFE, ⟨by decide, by decide⟩, by decide, by decide⟩, .inl ⟨by decide, by decide⟩⟩

/-- C133: with an exact test, nothing is listed exactly when no address has two bytes. -/
theorem C133_listing (meet : DataRange → DataRange → Bool) (hm : ∀ r s, meet r s = true ↔ Shares r s)
    (ranges : List DataRange) : overlapsWith meet ranges = [] ↔ ((image ranges).map Prod.fst).Nodup :=
  overlapsWith_nil hm ranges

/-- The code lists nothing for two bytes at the last address. -/
example : overlapsWith DataRange.intersectsWide [⟨0xFFF, [1]⟩, ⟨0xFFF, [2]⟩] = [(⟨0xFFF, [1]⟩, ⟨0xFFF, [2]⟩)] ∧
    findOverlappingRanges [⟨0xFFF, [1]⟩, ⟨0xFFF, [2]⟩] = [] := by decide

/-- C133: with an exact test, the writer yields what that of the code yields if no address has two bytes, and panics otherwise. -/
theorem C133_writer (meet : DataRange → DataRange → Bool) (hm : ∀ r s, meet r s = true ↔ Shares r s)
    (ranges : List DataRange) (h : ∀ r ∈ ranges, Built r) :
    (((image ranges).map Prod.fst).Nodup →
      (∃ text, ihexWith meet ranges = .ret text) ∧ ihexWith meet ranges = ihexRepresentationOfDataRanges ranges) ∧
    (¬ ((image ranges).map Prod.fst).Nodup → ihexWith meet ranges = .panic) := by
  constructor
  · intro hn
    have e1 := (overlapsWith_nil hm ranges).2 hn
    have e2 : findOverlappingRanges ranges = [] := by
      rw [findOverlapping_eq_pairs, pairsWhere_eq_nil]
      refine (image_nodup.1 hn).imp_of_mem fun {a b} ha hb hs => ?_
      exact Bool.eq_false_iff.2 fun e => hs ((C39_intersects_partial a b (h a ha) (h b hb)).1.1 e).1
    have e : ihexWith meet ranges = ihexRepresentationOfDataRanges ranges := by
      unfold ihexWith ihexRepresentationOfDataRanges
      rw [e1, e2]
    obtain ⟨lines, _, ht⟩ := C43_lines ranges h e2
    exact ⟨⟨_, e.trans ht⟩, e⟩
  · intro hn
    have e : ((overlapsWith meet ranges).length == 0) = false := by
      cases ho : overlapsWith meet ranges with
      | nil => exact (hn ((overlapsWith_nil hm ranges).1 ho)).elim
      | cons p ps => rfl
    unfold ihexWith
    rw [e]
    rfl

/-- The writer of the code writes both of two bytes for the last address. -/
example : ihexWith DataRange.intersectsWide [⟨0xFFF, [1]⟩, ⟨0xFFF, [2]⟩] = .panic ∧
    ihexRepresentationOfDataRanges [⟨0xFFF, [1]⟩, ⟨0xFFF, [2]⟩] =
      .ret ":010FFF0001F0\n:010FFF0002EF\n:00000001FF\n".toList := ⟨rfl, rfl⟩

/-- The steps of the code, with this test of two ranges. -/
def stepsMeeting [Target] (meet : DataRange → DataRange → Bool) (hash : Str → Nat) (grow : Nat → Nat) : Steps :=
  { Steps.code hash grow with overlapping := overlapsWith meet, write := ihexWith meet }

/-- C133: with an exact test, the tool does what it does with that of the code, for every command line, system and input:
no range it makes reaches the last address. -/
theorem C133_tool [Target] (meet : DataRange → DataRange → Bool) (hm : ∀ r s, meet r s = true ↔ Shares r s)
    (hash : Str → Nat) (grow : Nat → Nat) (getopts : Getopts) (env : Env) (args : List Str) :
    (stepsMeeting meet hash grow).main getopts env args = main getopts env args := by
  have hc := C129_code hash grow
  refine C129_steps (stepsMeeting meet hash grow) ⟨hc.front, hc.assemble, ?_, ?_⟩ getopts env args
  · intro ranges h
    exact (overlapsWith_low hm fun r hr => (h r hr).2).trans (hc.overlapping ranges h)
  · intro ranges h hp text
    rw [← hc.write ranges h hp text]
    exact (congrArg (· = Run.ret text) (ihexWith_low hm fun r hr => (h r hr).2)).to_iff

example [Target] (getopts : Getopts) (env : Env) (args : List Str) :
    (stepsMeeting DataRange.intersectsWide List.length id).main getopts env args = main getopts env args :=
  C133_tool _ C133_exact _ _ getopts env args

end C8S
