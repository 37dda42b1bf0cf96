import Verif.Proofs.Provenance
import Verif.Props.Diagnostics
import Verif.Props.Layout

/- Property C91: which statement of the source each byte of the output comes from. -/

namespace C8S

open Spec LayoutExample

/-- C91: the bytes of the output, with their addresses, are those that some statement puts there. -/
theorem C91_bytes (nodes : List Node) (ranges : List DataRange) (labels : LabelMap) (h : assemble nodes = .ret (.ok ranges))
    (hl : LabelsOf nodes labels) (x : Nat) (b : U8) : (x, b) ∈ image ranges ↔ ∃ i, Puts labels nodes i x b := by
  obtain ⟨L, secs, _, hl', hs, rfl⟩ := assemble_ok_iff.1 h
  rw [image_nonEmpty]
  exact writes_puts (sections_image (sections_congr (labelsOf_congr hl' hl) hs)) x b

/-- The byte of `.db 7`, which is the second statement. -/
example : (0x200, 7) ∈ image [⟨0x200, [7]⟩] ↔ ∃ i, Puts [] [org200, db7] i 0x200 7 :=
  C91_bytes _ _ _ rfl (defineLabels_ok rfl).2 0x200 7

/-- C91: ranges are reported to overlap exactly if two statements put a byte at the same address. -/
theorem C91_overlap (nodes : List Node) (ranges : List DataRange) (labels : LabelMap) (h : assemble nodes = .ret (.ok ranges))
    (hl : LabelsOf nodes labels) :
    findOverlappingRanges ranges ≠ [] ↔ ∃ i j x b c, i < j ∧ Puts labels nodes i x b ∧ Puts labels nodes j x c := by
  rw [Ne, C41_overlap nodes ranges h]
  obtain ⟨L, secs, _, hl', hs, rfl⟩ := assemble_ok_iff.1 h
  rw [image_nonEmpty, writes_nodup (sections_image (sections_congr (labelsOf_congr hl' hl) hs))]
  constructor
  · intro hn
    simp only [Classical.not_forall] at hn
    obtain ⟨x, i, j, b, c, h1, h2, hne⟩ := hn
    rcases Nat.lt_or_gt_of_ne hne with h | h
    · exact ⟨i, j, x, b, c, h, h1, h2⟩
    · exact ⟨j, i, x, c, b, h, h2, h1⟩
  · rintro ⟨i, j, x, b, c, hij, h1, h2⟩ H
    exact Nat.ne_of_lt hij (H x i j b c h1 h2)

example : assemble [org200, db7, org200, db7] = .ret (.ok [⟨0x200, [7]⟩, ⟨0x200, [7]⟩]) ∧
    findOverlappingRanges [⟨0x200, [7]⟩, ⟨0x200, [7]⟩] ≠ [] := ⟨rfl, by decide⟩

/-- C91: without an overlap, each byte of the output comes from one statement, and one place in it. -/
theorem C91_unique (nodes : List Node) (ranges : List DataRange) (labels : LabelMap) (h : assemble nodes = .ret (.ok ranges))
    (hl : LabelsOf nodes labels) (ho : findOverlappingRanges ranges = []) (x : Nat) (b : U8) (hx : (x, b) ∈ image ranges) :
    ∃ i, Puts labels nodes i x b ∧ ∀ j c, Puts labels nodes j x c → j = i ∧ c = b := by
  obtain ⟨i, hi⟩ := (C91_bytes nodes ranges labels h hl x b).1 hx
  refine ⟨i, hi, fun j c hj => ⟨?_, ?_⟩⟩
  · rcases Nat.lt_trichotomy i j with hlt | rfl | hlt
    · exact ((C91_overlap nodes ranges labels h hl).2 ⟨i, j, x, b, c, hlt, hi, hj⟩ ho).elim
    · rfl
    · exact ((C91_overlap nodes ranges labels h hl).2 ⟨j, i, x, c, b, hlt, hj, hi⟩ ho).elim
  · have h1 := (C91_bytes nodes ranges labels h hl x c).2 ⟨j, hj⟩
    have hn := (C41_overlap nodes ranges h).1 ho
    have inj : ∀ (l : List (Nat × U8)), (l.map Prod.fst).Nodup → ∀ x b c, (x, b) ∈ l → (x, c) ∈ l → c = b := by
      intro l
      induction l with
      | nil => intro _ x b c hb; cases hb
      | cons p l ih =>
        intro hn x b c hb hc
        simp only [List.map_cons, List.nodup_cons] at hn
        rcases List.mem_cons.1 hb with rfl | hb'
        · rcases List.mem_cons.1 hc with hc' | hc'
          · cases hc'; rfl
          · exact (hn.1 (List.mem_map.2 ⟨_, hc', rfl⟩)).elim
        · rcases List.mem_cons.1 hc with rfl | hc'
          · exact (hn.1 (List.mem_map.2 ⟨_, hb', rfl⟩)).elim
          · exact ih hn.2 x b c hb' hc'
    exact inj _ hn x b c hx h1

/-- The byte 7 of `.db 7` behind a jump. -/
example : assemble [org200, here, jpHere, db7] = .ret (.ok [⟨0x200, [0x12, 0, 7]⟩]) ∧
    findOverlappingRanges [⟨0x200, [0x12, 0, 7]⟩] = [] ∧ (0x202, 7) ∈ image [⟨0x200, [0x12, 0, 7]⟩] ∧
    Puts [("here".toList, 0x200)] [org200, here, jpHere, db7] 3 0x202 7 := by
  refine ⟨rfl, by decide, by decide, [org200, here, jpHere], db7, [], 0x202, [7], rfl, rfl, ?_, .db db7_means, Nat.le_refl _, rfl⟩
  exact .cons (.org (v := 0x200) (means_iff.1 rfl)) (.cons .label (.cons .instruction .nil))

/-- C91: the tokens of a text have different locations, which do not overlap and are in the order of the text. -/
theorem C91_tokens [Target] (file text : Str) (tokens : List Token) (h : scan file text = .ret tokens) :
    (tokens.map Token.location).Pairwise Earlier := by
  obtain ⟨pieces, tail, hP, hloc⟩ := C04_locations file text tokens h
  exact scan_earlier hP.count fun i t p ht hp => hloc i t p ht hp

example : [(⟨"f".toList, 1, 1, 2⟩ : Loc), ⟨"f".toList, 1, 4, 1⟩, ⟨"f".toList, 1, 5, 1⟩, ⟨"f".toList, 2, 1, 3⟩].Pairwise Earlier :=
  C91_tokens "f".toList "jp 1\nret".toList _ rfl

/-- C91: so do the statements of a text; the location names the statement. -/
theorem C91_statements [Target] (file text : Str) (tokens : List Token) (nodes : List Node) (h : scan file text = .ret tokens)
    (hp : parse tokens = .ret (.ok nodes)) : (nodes.map nodeLocation).Pairwise Earlier :=
  (C91_tokens file text tokens h).sublist (program_locations ((parse_ok_iff _ _).1 hp))

example : Earlier ⟨"f".toList, 1, 1, 1⟩ ⟨"f".toList, 1, 4, 3⟩ ∧ ¬ Earlier ⟨"f".toList, 1, 4, 3⟩ ⟨"f".toList, 1, 4, 3⟩ :=
  ⟨.inr ⟨rfl, by decide⟩, by rintro (h | ⟨_, h⟩) <;> revert h <;> decide⟩

/-- C91: each byte of the output file of a run comes from one statement of the input file, and what would be printed for the
location of this statement tells line and columns of its name in the file. -/
theorem C91_text [Target] (file text : Str) (tokens : List Token) (nodes : List Node) (ranges : List DataRange) (labels : LabelMap)
    (hs : scan file text = .ret tokens) (hp : parse tokens = .ret (.ok nodes)) (ha : assemble nodes = .ret (.ok ranges))
    (hl : LabelsOf nodes labels) (ho : findOverlappingRanges ranges = []) :
    ∃ pieces tail, Pieces text tokens pieces tail ∧ ∀ x b, (x, b) ∈ image ranges →
      ∃ i n, nodes[i]? = some n ∧ Puts labels nodes i x b ∧ (∀ j c, Puts labels nodes j x c → j = i ∧ c = b) ∧
        ∃ k name piece, tokens[k]? = some (.identifier name (nodeLocation n)) ∧ pieces[k]? = some piece ∧
          LocatesText file (textBefore pieces k piece) piece.2 (nodeLocation n).display := by
  obtain ⟨pieces, tail, hP, hloc⟩ := C56_token file text _ hs
  refine ⟨pieces, tail, hP, fun x b hx => ?_⟩
  obtain ⟨i, hi, hu⟩ := C91_unique nodes ranges labels ha hl ho x b hx
  obtain ⟨pre, n, post, a, bytes, rfl, rfl, h1, h2, h3, h4⟩ := hi
  obtain ⟨name, hm⟩ := program_location ((parse_ok_iff _ _).1 hp) n (by simp)
  obtain ⟨k, hk⟩ := List.getElem?_of_mem hm
  have hlt : k < pieces.length := by rw [hP.count]; exact (List.getElem?_eq_some_iff.1 hk).1
  exact ⟨pre.length, n, by simp, ⟨pre, n, post, a, bytes, rfl, rfl, h1, h2, h3, h4⟩, hu, k, name, pieces[k], hk,
    List.getElem?_eq_getElem hlt, hloc k _ _ hk (List.getElem?_eq_getElem hlt)⟩

example : scan "a.s".toList "ret\n.db 7".toList = .ret [.identifier "ret".toList ⟨"a.s".toList, 1, 1, 3⟩,
      .newline ⟨"a.s".toList, 1, 4, 1⟩, .directiveMarker ⟨"a.s".toList, 2, 1, 1⟩, .identifier "db".toList ⟨"a.s".toList, 2, 2, 2⟩,
      .numericLiteral 7 ⟨"a.s".toList, 2, 5, 1⟩] ∧
    parse [.identifier "ret".toList ⟨"a.s".toList, 1, 1, 3⟩,
      .newline ⟨"a.s".toList, 1, 4, 1⟩, .directiveMarker ⟨"a.s".toList, 2, 1, 1⟩, .identifier "db".toList ⟨"a.s".toList, 2, 2, 2⟩,
      .numericLiteral 7 ⟨"a.s".toList, 2, 5, 1⟩] = .ret (.ok [.instruction ⟨"a.s".toList, 1, 1, 3⟩ "ret".toList [],
        .directive ⟨"a.s".toList, 2, 2, 2⟩ "db".toList [.numeric 7]]) ∧
    assemble [.instruction ⟨"a.s".toList, 1, 1, 3⟩ "ret".toList [], .directive ⟨"a.s".toList, 2, 2, 2⟩ "db".toList [.numeric 7]] =
      .ret (.ok [⟨0, [0, 0xEE, 7]⟩]) ∧
    findOverlappingRanges [⟨0, [0, 0xEE, 7]⟩] = [] ∧ (2, 7) ∈ image [⟨0, [0, 0xEE, 7]⟩] :=
  ⟨by decide +kernel, rfl, rfl, by decide, by decide⟩

end C8S
