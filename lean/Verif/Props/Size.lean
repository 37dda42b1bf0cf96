import Verif.Proofs.Size
import Verif.Props.Image

/- Properties on the size of the output: C74. -/

namespace C8S

open Spec LayoutExample

/-- C74: the length of the text: 12 characters for each record, with the end record, and 2 for each byte. -/
theorem C74_length (ranges : List DataRange) (h : ∀ r ∈ ranges, Built r) (text : Str)
    (ht : ihexRepresentationOfDataRanges ranges = .ret text) :
    text.length = 12 * (recordCount ranges + 1) + 2 * (image ranges).length := by
  have hov : findOverlappingRanges ranges = [] := by
    refine Classical.byContradiction fun hne => ?_
    rw [(C44_panics_iff ranges h).2 hne] at ht
    cases ht
  obtain ⟨lines, h1, h2⟩ := C43_lines ranges h hov
  cases ht.symm.trans h2
  rw [List.flatMap_append, List.length_append, (allLines_length h1).2, image_length]
  have : ([":00000001FF".toList].flatMap (· ++ ['\n'])).length = 12 := by decide
  omega

example : Built ⟨0x200, [1, 2]⟩ ∧ ihexRepresentationOfDataRanges [⟨0x200, [1, 2]⟩] =
      .ret ":020200000102F9\n:00000001FF\n".toList ∧
    ":020200000102F9\n:00000001FF\n".toList.length = 12 * (recordCount [⟨0x200, [1, 2]⟩] + 1) + 2 * 2 :=
  ⟨(C38_built_iff_inMemory _).2 (by decide), by decide +kernel, by decide⟩

/-- C74: the text consists of the colon, the digits and the newline, so that it has as many bytes as characters. -/
theorem C74_characters (ranges : List DataRange) (h : ∀ r ∈ ranges, Built r) (text : Str)
    (ht : ihexRepresentationOfDataRanges ranges = .ret text) :
    ∀ c ∈ text, c ∈ ":0123456789ABCDEF\n".toList := by
  have hov : findOverlappingRanges ranges = [] := by
    refine Classical.byContradiction fun hne => ?_
    rw [(C44_panics_iff ranges h).2 hne] at ht
    cases ht
  obtain ⟨lines, h1, h2⟩ := C43_lines ranges h hov
  cases ht.symm.trans h2
  have hm := allLines_mem h1 fun r hr => by
    have := (C38_built_iff_inMemory r).1 (h r hr)
    simp only [InMemory, memorySize] at this
    omega
  intro c hc
  obtain ⟨line, hl, hc⟩ := List.mem_flatMap.1 hc
  rcases List.mem_append.1 hc with hc | hc
  · rcases List.mem_append.1 hl with hl | hl
    · exact hm line hl c hc
    · cases List.mem_singleton.1 hl
      have : ∀ c ∈ ":00000001FF".toList, c ∈ ":0123456789ABCDEF\n".toList := by decide
      exact this c hc
  · cases List.mem_singleton.1 hc
    decide

example (c : Char) (h : c ∈ ":0102000007F6\n:00000001FF\n".toList) : c ∈ ":0123456789ABCDEF\n".toList :=
  C74_characters [⟨0x200, [7]⟩] (by
    intro r hr
    rw [List.mem_singleton.1 hr]
    exact (C38_built_iff_inMemory _).2 (by decide)) _ (by decide +kernel) c h

/-- C74: as many bytes are written as there are characters. -/
theorem C74_bytes (ranges : List DataRange) (h : ∀ r ∈ ranges, Built r) (text : Str)
    (ht : ihexRepresentationOfDataRanges ranges = .ret text) : (utf8 text).length = text.length :=
  hexText_bytes (C74_characters ranges h text ht)

example : (utf8 ":0102000007F6\n:00000001FF\n".toList).length = 26 := by decide +kernel

/-- C74: the text for an assembled program is at most 57342 characters long. -/
theorem C74_bound (nodes : List Node) (ranges : List DataRange) (text : Str) (h : assemble nodes = .ret (.ok ranges))
    (ht : ihexRepresentationOfDataRanges ranges = .ret text) : text.length ≤ 57342 := by
  have hb : ∀ r ∈ ranges, Built r := by
    intro r hr
    refine (C38_built_iff_inMemory r).2 ?_
    have := (ranges_bound h r hr).2
    simp only [InMemory, memorySize]
    omega
  have hlen := C74_length ranges hb text ht
  have hov : findOverlappingRanges ranges = [] := by
    refine Classical.byContradiction fun hne => ?_
    rw [(C44_panics_iff ranges hb).2 hne] at ht
    cases ht
  have hn := nodup_bound 4095 _ ((C41_overlap nodes ranges h).1 hov) (by
    intro a ha
    simp only [image, List.mem_map, List.mem_flatMap] at ha
    obtain ⟨p, ⟨r, hr, hp⟩, rfl⟩ := ha
    obtain ⟨h1, h2⟩ := mem_placeAt.1 hp
    have := (ranges_bound h r hr).2
    obtain ⟨h3, _⟩ := List.getElem?_eq_some_iff.1 h2
    simp only [rangeEnd] at this
    omega)
  rw [List.length_map] at hn
  have := recordCount_le ranges
  rw [← image_length] at this
  omega

example : assemble [org200, db7, here] = .ret (.ok [⟨0x200, [7]⟩]) ∧
    ihexRepresentationOfDataRanges [⟨0x200, [7]⟩] = .ret ":0102000007F6\n:00000001FF\n".toList := ⟨rfl, by decide +kernel⟩

/-- C74: whatever the source, the tool writes at most 57342 bytes. -/
theorem C74_tool [Target] (env : Env) (program input output : Str) (d : Dest) (b : List U8)
    (h : .wrote d b ∈ (assembleFile env program input output).events) : b.length ≤ 57342 := by
  unfold assembleFile at h
  cases ho : env.openInput input with
  | error reason => simp [ho, logProgramError] at h
  | ok u =>
    cases hr : env.readInput input with
    | error reason => simp [ho, hr, logProgramError] at h
    | ok text =>
      simp only [ho, hr, List.mem_cons, reduceCtorEq, false_or] at h
      have hrun := textRun env program input output text
      generalize assembleText env program input output text = o at h hrun
      cases hrun with
      | syntaxError => simp at h
      | semanticError => simp at h
      | overlap _ _ _ _ hp =>
        obtain ⟨t, ht⟩ := hp _ h
        cases ht
      | @written tokens nodes ranges hex _ _ ha hov hh =>
        rcases writeResult_events env program output hex _ h with ⟨t, ht⟩ | ⟨ht, _⟩ | ⟨n, ht⟩
        · cases ht
        · cases ht
        · cases ht
          have hb : ∀ r ∈ ranges, Built r := by
            intro r hr
            refine (C38_built_iff_inMemory r).2 ?_
            have := (ranges_bound ha r hr).2
            simp only [InMemory, memorySize]
            omega
          have h1 := C74_bytes ranges hb hex hh
          have h2 := C74_bound nodes ranges hex ha hh
          rw [List.length_take]
          omega

example : ∃ b, .wrote .stdout b ∈ (assembleFile ⟨fun _ => .ok (), fun _ => .ok ".db 7\n".toList, fun _ => .ok (), fun _ _ => .ok ()⟩
    "c8s".toList "a.s".toList "-".toList).events ∧ b.length = 26 :=
  ⟨utf8 ":0100000007F8\n:00000001FF\n".toList, by decide +kernel, by decide +kernel⟩

/-- C74: there is a source text with an output of this size. -/
theorem C74_attained [Target] (file : Str) : ∃ source tokens nodes ranges text, scan file source = .ret tokens ∧
    parse tokens = .ret (.ok nodes) ∧ assemble nodes = .ret (.ok ranges) ∧
    ihexRepresentationOfDataRanges ranges = .ret text ∧ text.length = 57342 := by
  let ranges : List DataRange := (List.range 4095).map fun a => ⟨BitVec.ofNat 12 a, [0]⟩
  have hlt : ∀ a ∈ List.range 4095, (BitVec.ofNat 12 a).toNat = a := by
    intro a ha
    have := List.mem_range.1 ha
    rw [BitVec.toNat_ofNat, Nat.mod_eq_of_lt (by omega)]
  have hp : ∀ r ∈ ranges, Placeable r := by
    intro r hr
    obtain ⟨a, ha, rfl⟩ := List.mem_map.1 hr
    refine ⟨by simp, ?_⟩
    have := List.mem_range.1 ha
    simp only [rangeEnd, hlt a ha, List.length_cons, List.length_nil]
    omega
  obtain ⟨tokens, nodes, hs, hpar, ha⟩ := C65_source file ranges hp
  have himg : image ranges = (List.range 4095).map fun a => (a, 0) := by
    have key : ∀ l : List Nat, (∀ a ∈ l, (BitVec.ofNat 12 a).toNat = a) →
        image (l.map fun a => ⟨BitVec.ofNat 12 a, [0]⟩) = l.map fun a => (a, 0) := by
      intro l
      induction l with
      | nil => intro _; rfl
      | cons a l ih =>
        intro h
        have e := ih fun x hx => h x (List.mem_cons_of_mem _ hx)
        have e' : image ((a :: l).map fun a => (⟨BitVec.ofNat 12 a, [0]⟩ : DataRange)) =
            ((BitVec.ofNat 12 a).toNat, 0) :: image (l.map fun a => ⟨BitVec.ofNat 12 a, [0]⟩) := rfl
        rw [e', e, h a List.mem_cons_self, List.map_cons]
    exact key _ hlt
  have hov : findOverlappingRanges ranges = [] := by
    rw [C41_overlap nodes ranges ha, himg, List.map_map]
    have : (Prod.fst ∘ fun a => ((a, 0) : Nat × U8)) = id := rfl
    rw [this, List.map_id]
    exact List.nodup_range
  obtain ⟨text, ht, _⟩ := C44_assembled nodes ranges ha hov
  refine ⟨_, tokens, nodes, ranges, text, hs, hpar, ha, ht, ?_⟩
  have hb : ∀ r ∈ ranges, Built r := by
    intro r hr
    refine (C38_built_iff_inMemory r).2 ?_
    have := (ranges_bound ha r hr).2
    simp only [InMemory, memorySize]
    omega
  have hc : recordCount ranges = 4095 := by
    have key : ∀ l : List Nat, recordCount (l.map fun a => ⟨BitVec.ofNat 12 a, [0]⟩) = l.length := by
      intro l
      induction l with
      | nil => rfl
      | cons a l ih =>
        simp only [recordCount, List.map_cons, List.sum_cons, List.length_cons] at ih ⊢
        rw [ih]
        simp
        omega
    exact (key _).trans List.length_range
  rw [C74_length ranges hb text ht, hc, himg, List.length_map, List.length_range]

end C8S
