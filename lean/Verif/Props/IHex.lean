import Verif.Proofs.IHex
import Verif.Props.DataRange
import Verif.Props.Layout

/- Properties of the Intel HEX output: C42 to C44. -/

namespace C8S

open Spec

/-- C42: for ranges without overlaps, reading the produced text back gives exactly their addressed bytes, in order. -/
theorem C42_decodes (ranges : List DataRange) (h : ∀ r ∈ ranges, Built r) (hov : findOverlappingRanges ranges = []) :
    ∃ text, ihexRepresentationOfDataRanges ranges = .ret text ∧
      readHex text = some ((image ranges).map fun p => (p.1, p.2.toNat)) := by
  obtain ⟨lines, _, h1, h2⟩ := ihex_text ranges (fun r hr => (C38_built_iff_inMemory r).1 (h r hr)) hov
  exact ⟨_, h1, h2⟩

example : ∃ text, ihexRepresentationOfDataRanges [⟨0x200, [1, 2, 3]⟩, ⟨0x300, [4]⟩] = .ret text ∧
    readHex text = some [(0x200, 1), (0x201, 2), (0x202, 3), (0x300, 4)] :=
  C42_decodes [⟨0x200, [1, 2, 3]⟩, ⟨0x300, [4]⟩]
    (by simp only [List.mem_cons, List.not_mem_nil, or_false, forall_eq_or_imp, forall_eq]
        exact ⟨(C38_built_iff_inMemory _).2 (by decide), (C38_built_iff_inMemory _).2 (by decide)⟩) (by decide)

/-- C42: different images give different texts. -/
theorem C42_injective (ranges ranges' : List DataRange) (h : ∀ r ∈ ranges, Built r) (h' : ∀ r ∈ ranges', Built r)
    (text : Str) (ht : ihexRepresentationOfDataRanges ranges = .ret text)
    (ht' : ihexRepresentationOfDataRanges ranges' = .ret text) : image ranges = image ranges' := by
  have key : ∀ rs, (∀ r ∈ rs, Built r) → ihexRepresentationOfDataRanges rs = .ret text →
      readHex text = some ((image rs).map fun p => (p.1, p.2.toNat)) := by
    intro rs hrs ht
    have hov : findOverlappingRanges rs = [] := by
      rw [← List.length_eq_zero_iff]
      refine Classical.byContradiction fun hne => ?_
      simp [ihexRepresentationOfDataRanges, rustAssert, hne] at ht
    obtain ⟨text', h1, h2⟩ := C42_decodes rs hrs hov
    rw [ht] at h1
    cases h1
    exact h2
  have e := (key ranges h ht).symm.trans (key ranges' h' ht')
  injection e with e
  refine (List.map_inj_right (fun {x y} hp => ?_)).1 e
  obtain ⟨a, b⟩ := x
  obtain ⟨c, d⟩ := y
  simp only [Prod.mk.injEq] at hp
  exact Prod.ext hp.1 (BitVec.eq_of_toNat_eq hp.2)

example : Built ⟨0x200, [1, 2, 3]⟩ ∧ Built ⟨0x300, [4]⟩ ∧
    findOverlappingRanges [⟨0x200, [1, 2, 3]⟩, ⟨0x300, [4]⟩] = [] :=
  ⟨(C38_built_iff_inMemory _).2 (by decide), (C38_built_iff_inMemory _).2 (by decide), by decide⟩

example : readHex ":03020000010203F5\n:0103000004F8\n:00000001FF\n".toList
    = some [(0x200, 1), (0x201, 2), (0x202, 3), (0x300, 4)] := by decide +kernel

example : readHex ":03020000010203F6\n:00000001FF\n".toList = none := by decide +kernel

/-- C43: the text is made of newline-terminated lines: the upper-case records of each range in order, 16 bytes each
but for the last of a range, with correct checksums, and then the end record. -/
theorem C43_lines (ranges : List DataRange) (h : ∀ r ∈ ranges, Built r) (hov : findOverlappingRanges ranges = []) :
    ∃ lines, AllLines ranges lines ∧
      ihexRepresentationOfDataRanges ranges = .ret ((lines ++ [":00000001FF".toList]).flatMap (· ++ ['\n'])) := by
  obtain ⟨lines, h1, h2, _⟩ := ihex_text ranges (fun r hr => (C38_built_iff_inMemory r).1 (h r hr)) hov
  exact ⟨lines, h1, h2⟩

example : (∀ r ∈ ([⟨0x200, [1, 2, 3]⟩] : List DataRange), Built r) ∧ findOverlappingRanges [⟨0x200, [1, 2, 3]⟩] = [] ∧
    ihexRepresentationOfDataRanges [⟨0x200, [1, 2, 3]⟩] = .ret ":03020000010203F5\n:00000001FF\n".toList := by
  refine ⟨?_, by decide, by rfl⟩
  simp only [List.mem_cons, List.not_mem_nil, or_false, forall_eq]
  exact (C38_built_iff_inMemory _).2 (by decide)

/-- C43: every line but the last is a data record of 1 to 16 bytes. -/
theorem C43_sizes (ranges : List DataRange) (lines : List Str) (h : AllLines ranges lines) :
    ∀ line ∈ lines, ∃ a bytes, 1 ≤ bytes.length ∧ bytes.length ≤ 16 ∧ IsDataLine a bytes line := by
  have hr : ∀ {a data ls}, RangeLines a data ls →
      ∀ line ∈ ls, ∃ a bytes, 1 ≤ bytes.length ∧ bytes.length ≤ 16 ∧ IsDataLine a bytes line := by
    intro a data ls h
    induction h with
    | empty => simp
    | last h1 h2 h3 =>
      intro line hm
      cases List.mem_singleton.1 hm
      exact ⟨_, _, h1, h2, h3⟩
    | more h1 _ h3 _ ih =>
      intro line hm
      rcases List.mem_cons.1 hm with rfl | hm
      · exact ⟨_, _, by omega, by omega, h3⟩
      · exact ih line hm
  induction h with
  | nil => simp
  | cons h1 _ ih =>
    intro line hm
    rcases List.mem_append.1 hm with hm | hm
    · exact hr h1 line hm
    · exact ih line hm

example : ∃ lines, AllLines [⟨0x200, [1, 2, 3]⟩] lines ∧
    ∀ line ∈ lines, ∃ a bytes, 1 ≤ bytes.length ∧ bytes.length ≤ 16 ∧ IsDataLine a bytes line := by
  obtain ⟨lines, h, _⟩ := C43_lines [⟨0x200, [1, 2, 3]⟩] (by
    simp only [List.mem_cons, List.not_mem_nil, or_false, forall_eq]
    exact (C38_built_iff_inMemory _).2 (by decide)) (by decide)
  exact ⟨lines, h, C43_sizes _ _ h⟩

/-- C43: the end record occurs only at the end. -/
theorem C43_one_end (ranges : List DataRange) (lines : List Str) (h : AllLines ranges lines) :
    ":00000001FF".toList ∉ lines := by
  intro hm
  obtain ⟨a, bytes, h1, h2, check, hc, _, he⟩ := C43_sizes ranges lines h _ hm
  have e0 : ":00000001FF".toList = ':' :: (upperPair 0 ++ "000001FF".toList) := by decide
  rw [e0] at he
  simp only [List.append_assoc, List.cons.injEq, true_and] at he
  have e1 : readPairs (upperPair 0 ++ "000001FF".toList) = some [0, 0, 0, 1, 255] := by decide +kernel
  rw [he, readPairs_upper (by omega)] at e1
  cases hp : readPairs (upperPair (a / 256) ++ (upperPair (a % 256) ++ (upperPair 0 ++
    (bytes.flatMap (fun b => upperPair b.toNat) ++ upperPair check)))) with
  | none => rw [hp] at e1; cases e1
  | some l =>
    rw [hp] at e1
    simp at e1
    rw [e1.1] at h1
    simp at h1

example : ihexRepresentationOfDataRanges [⟨0x200, List.replicate 17 0xAB⟩]
    = .ret ":10020000ABABABABABABABABABABABABABABABAB3E\n:01021000AB42\n:00000001FF\n".toList := by rfl

/-- C44: for ranges reachable by appends, the output panics exactly when an overlap is reported: no address
arithmetic overflows and no record is rejected. -/
theorem C44_panics_iff (ranges : List DataRange) (h : ∀ r ∈ ranges, Built r) :
    ihexRepresentationOfDataRanges ranges = .panic ↔ findOverlappingRanges ranges ≠ [] := by
  constructor
  · intro hp hov
    obtain ⟨text, h1, _⟩ := C42_decodes ranges h hov
    rw [h1] at hp
    cases hp
  · intro hov
    simp [ihexRepresentationOfDataRanges, rustAssert, hov]

example : ihexRepresentationOfDataRanges [⟨0, [1, 2]⟩, ⟨1, [3]⟩] = .panic := by
  refine (C44_panics_iff _ fun r hr => (C38_built_iff_inMemory r).2 ?_).2 (by decide)
  simp only [List.mem_cons, List.not_mem_nil, or_false] at hr
  rcases hr with rfl | rfl <;> decide

/-- C44, for assembled programs: without overlaps there is a text, which decodes to the image of the program. -/
theorem C44_assembled (nodes : List Node) (ranges : List DataRange) (h : assemble nodes = .ret (.ok ranges))
    (hov : findOverlappingRanges ranges = []) :
    ∃ text, ihexRepresentationOfDataRanges ranges = .ret text ∧
      readHex text = some ((image ranges).map fun p => (p.1, p.2.toNat)) := by
  refine C42_decodes ranges (fun r hr => (C38_built_iff_inMemory r).2 ?_) hov
  have := (ranges_bound h r hr).2
  simp only [InMemory, memorySize]
  omega

example : ∃ text, ihexRepresentationOfDataRanges [⟨0x200, [7, 0x12, 0x01]⟩] = .ret text ∧
    readHex text = some [(0x200, 7), (0x201, 0x12), (0x202, 1)] :=
  C44_assembled _ _ LayoutExample.assembled (by decide)

example : ihexRepresentationOfDataRanges [⟨0, [1, 2]⟩, ⟨1, [3]⟩] = .panic := by rfl

end C8S
