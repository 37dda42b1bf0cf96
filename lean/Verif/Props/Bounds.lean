import Verif.Proofs.Bounds
import Verif.Props.Size
import Verif.Props.Respell

/- Properties on the size of everything relative to the source text: C86. -/

namespace C8S

open Spec

namespace BoundsExample

/-- Two lines. -/
def text : Str := "cls\n jp\n".toList

def l (line column length : Nat) : Loc := ⟨"f".toList, line, column, length⟩

def tokens : List Token := [.identifier "cls".toList (l 1 1 3), .newline (l 1 4 1), .identifier "jp".toList (l 2 2 2),
  .newline (l 2 4 1)]

theorem scanned : scan "f".toList text = .ret tokens := by decide +kernel

end BoundsExample

open BoundsExample

/-- C86: however often the tokenizer is asked for a token, its byte position is at most the size of the text, and its
line and column counters together at most the number of characters and 2. So none of them can overflow. -/
theorem C86_scanner [Target] (file text : Str) (s : Scanner) (h : Visits file text s) :
    s.position ≤ (utf8 text).length ∧ s.currentLine + s.currentLineOffset ≤ text.length + 2 := by
  rw [utf8_length]
  exact (visits_bounded h).1.2

/-- The state after the first token. -/
example : Visits "f".toList text ⟨"f".toList, text, 3, 1, 4⟩ ∧ (utf8 text).length = 8 :=
  ⟨.next (t := some (.identifier "cls".toList (l 1 1 3))) .start (by decide +kernel), by rw [utf8_length]; decide⟩

/-- C86: line, column and length of a token add up to at most the number of characters and 2, so that the last column
printed for it cannot overflow either. -/
theorem C86_locations [Target] (file text : Str) (tokens : List Token) (h : scan file text = .ret tokens) :
    ∀ t ∈ tokens, t.location.line + t.location.location + t.location.length ≤ text.length + 2 := by
  intro t ht
  obtain ⟨pieces, tail, hP, hloc⟩ := C04_locations file text tokens h
  obtain ⟨i, hi, rfl⟩ := List.getElem_of_mem ht
  have hi' : i < pieces.length := by rw [hP.count]; exact hi
  rw [hloc i _ pieces[i] (List.getElem?_eq_getElem hi) (List.getElem?_eq_getElem hi')]
  have h1 := lines_columns (textBefore pieces i pieces[i])
  have h2 := firstLine_le pieces[i].2
  have h3 : (textBefore pieces i pieces[i]).length + pieces[i].2.length ≤ text.length := by
    have e : pieces = pieces.take i ++ pieces[i] :: pieces.drop (i + 1) := by simp
    have ht : text.length = ((pieces.take i ++ pieces[i] :: pieces.drop (i + 1)).map fun p => p.1 ++ p.2).flatten.length +
        tail.length := by
      rw [← e, hP.text_eq, List.length_append]
    rw [ht, textBefore]
    simp only [List.map_append, List.map_cons, List.flatten_append, List.flatten_cons, List.length_append]
    omega
  simp only
  omega

/-- The bound is reached by the last character of the second line. -/
example : (l 2 4 1).line + (l 2 4 1).location + (l 2 4 1).length ≤ text.length + 2 :=
  C86_locations "f".toList text tokens scanned (.newline (l 2 4 1)) (by simp [tokens])

/-- C86: there are at most as many tokens as characters. -/
theorem C86_tokens [Target] (file text : Str) (tokens : List Token) (h : scan file text = .ret tokens) :
    tokens.length ≤ text.length := by
  obtain ⟨pieces, tail, hP, _⟩ := C04_locations file text tokens h
  have := pieces_count hP.nonempty
  rw [hP.text_eq, List.length_append, ← hP.count]
  omega

example : tokens.length = 4 ∧ text.length = 8 := ⟨rfl, rfl⟩

/-- C86: there are at most as many statements, arguments and operands together as tokens. -/
theorem C86_statements (tokens : List Token) (nodes : List Node) (h : parse tokens = .ret (.ok nodes)) :
    (nodes.map partCount).sum ≤ tokens.length := program_count ((parse_ok_iff _ _).1 h)

example : (ParserExample.sampleNodes.map partCount).sum ≤ ParserExample.sample.length :=
  program_count ParserExample.sample_program

/-- C86: a text describes at most as many bytes as it has itself. -/
theorem C86_output [Target] (file text : Str) (bytes : List (Nat × U8)) (h : Describes wordBinary file text bytes) :
    bytes.length ≤ (utf8 text).length := by
  rw [utf8_length]
  obtain ⟨tokens, nodes, ranges, hs, hp, ha, rfl⟩ := (describes_iff _ _ _).1 h
  obtain ⟨labels, _, hw⟩ := C33_labels nodes ranges ha
  obtain ⟨pieces, tail, hP, _⟩ := C04_locations file text tokens hs
  have h1 := program_weight ((parse_ok_iff _ _).1 hp) hw
  have h2 := weight_text hP.count hP.written hP.nonempty
  rw [hP.text_eq, byteLen_append]
  omega

/-- Two bytes of a text of eight. -/
example : Describes wordBinary [] ".db \"ab\"".toList [(0, 97), (1, 98)] ∧
    (utf8 ".db \"ab\"".toList).length = 8 := by
  refine ⟨(describes_iff _ _ _).2 ⟨[.directiveMarker ⟨[], 1, 1, 1⟩, .identifier "db".toList ⟨[], 1, 2, 2⟩,
    .stringLiteral "ab".toList ⟨[], 1, 5, 4⟩], [.directive ⟨[], 1, 2, 2⟩ "db".toList [.string "ab".toList]],
    [⟨0, [97, 98]⟩], by decide +kernel, rfl, rfl, rfl⟩, by rw [utf8_length]; decide⟩

theorem records_le_bytes (ranges : List DataRange) : recordCount ranges ≤ (image ranges).length := by
  induction ranges with
  | nil => exact Nat.le_refl _
  | cons r rs ih =>
    simp only [recordCount, image, List.map_cons, List.sum_cons, List.flatMap_cons, List.length_append,
      placeAt_length] at ih ⊢
    omega

/-- C86: the object file has at most 14 characters for each byte of the source, and 12 more. -/
theorem C86_file [Target] (file text : Str) (tokens : List Token) (nodes : List Node) (ranges : List DataRange) (hex : Str)
    (hs : scan file text = .ret tokens) (hp : parse tokens = .ret (.ok nodes)) (ha : assemble nodes = .ret (.ok ranges))
    (hh : ihexRepresentationOfDataRanges ranges = .ret hex) : hex.length ≤ 14 * (utf8 text).length + 12 := by
  have h1 := C86_output file text _ ((describes_iff _ _ _).2 ⟨tokens, nodes, ranges, hs, hp, ha, rfl⟩)
  have hb : ∀ r ∈ ranges, Built r := by
    intro r hr
    refine (C38_built_iff_inMemory r).2 ?_
    have := (ranges_bound ha r hr).2
    simp only [InMemory, memorySize]
    omega
  have h2 := C74_length ranges hb hex hh
  have h3 := records_le_bytes ranges
  omega

example : ihexRepresentationOfDataRanges [⟨0, [97, 98]⟩] = .ret ":0200000061623B\n:00000001FF\n".toList := by
  decide +kernel

end C8S
