import Verif.Props.Size
import Verif.Props.Tool
import Verif.Proofs.Slips

/-
C98: errors in the object file are noticed when it is read.
-/

namespace C8S

open Spec

theorem readable (ranges : List DataRange) (h : ∀ r ∈ ranges, Built r) (text : Str)
    (ht : ihexRepresentationOfDataRanges ranges = .ret text) : ∃ m, readHex text = some m := by
  have hov : findOverlappingRanges ranges = [] := by
    by_cases e : findOverlappingRanges ranges = []
    · exact e
    · rw [(C44_panics_iff ranges h).2 e] at ht
      cases ht
  obtain ⟨text', h1, h2⟩ := C42_decodes ranges h hov
  rw [ht] at h1
  cases h1
  exact ⟨_, h2⟩

/-! ### C98 -/

/-- C98: with one error in it, a readable file is never misread: it is rejected, or it is read as before. The latter needs
a digit that is a lower-case letter. -/
theorem C98_readable (text text' : Str) (m : List (Nat × Nat)) (hm : readHex text = some m) (h : Slip text text') :
    readHex text' = none ∨ readHex text' = some m ∧ ∃ c, (c ∈ text ∨ c ∈ text') ∧ 'a' ≤ c ∧ c ≤ 'f' := by
  cases h' : readHex text' with
  | none => exact .inl rfl
  | some m' =>
    right
    obtain ⟨A, B, c, d, v, hc, hd, hne, e⟩ := slip_digits h hm h'
    have up := upcase_same hc hd
    have same : text.map upcase = text'.map upcase := by
      rcases e with ⟨rfl, rfl⟩ | ⟨rfl, rfl⟩ <;> simp [up]
    have hr : readHex text' = readHex text := by rw [← readHex_upcase text', ← same, readHex_upcase]
    refine ⟨by rw [← h', hr, hm], ?_⟩
    by_cases lc : 'a' ≤ c ∧ c ≤ 'f'
    · refine ⟨c, .inl ?_, lc⟩
      rcases e with ⟨rfl, rfl⟩ | ⟨rfl, rfl⟩ <;> simp
    · by_cases ld : 'a' ≤ d ∧ d ≤ 'f'
      · refine ⟨d, .inr ?_, ld⟩
        rcases e with ⟨rfl, rfl⟩ | ⟨rfl, rfl⟩ <;> simp
      · exact absurd (readDigit_same hc hd lc ld) hne

/-- The end record alone is a readable file. One of its digits can become lower case. -/
example : readHex ":00000001FF\n".toList = some [] ∧ Slip ":00000001FF\n".toList ":00000001Ff\n".toList ∧
    readHex ":00000001Ff\n".toList = some [] :=
  ⟨by decide +kernel, .changed (A := ":00000001F".toList) (B := ['\n']) (by decide), by decide +kernel⟩

/-- C98: with one error in it, an object file is rejected, unless the error is a digit that became lower case, which does
not change what is read. -/
theorem C98_detected (ranges : List DataRange) (h : ∀ r ∈ ranges, Built r) (text text' : Str)
    (ht : ihexRepresentationOfDataRanges ranges = .ret text) (hs : Slip text text') :
    readHex text' = none ∨ readHex text' = readHex text ∧ ∃ c ∈ text', 'a' ≤ c ∧ c ≤ 'f' := by
  obtain ⟨m, hm⟩ := readable ranges h text ht
  rcases C98_readable text text' m hm hs with hn | ⟨hr, c, hc, hl⟩
  · exact .inl hn
  · refine .inr ⟨by rw [hr, hm], c, ?_, hl⟩
    rcases hc with hc | hc
    · have := C74_characters ranges h text ht c hc
      exact absurd hl (hexChar_upper c this)
    · exact hc

namespace SlipsExample

def ranges : List DataRange := [⟨0x200, [1, 0x21]⟩]

theorem built : ∀ r ∈ ranges, Built r := by
  simp only [ranges, List.mem_cons, List.not_mem_nil, or_false, forall_eq]
  exact (C38_built_iff_inMemory _).2 (by decide)

theorem written : ihexRepresentationOfDataRanges ranges = .ret ":020200000121DA\n:00000001FF\n".toList := by decide +kernel

end SlipsExample

open SlipsExample in
/-- The digits 1 and 2 of neighbouring bytes in the wrong order, a lost digit, and a lost newline. -/
example : readHex ":020200000211DA\n:00000001FF\n".toList = none ∧
    readHex ":02020000012DA\n:00000001FF\n".toList = none ∧ readHex ":020200000121DA:00000001FF\n".toList = none := by
  refine ⟨?_, ?_, ?_⟩
  · rcases C98_detected ranges built _ ":020200000211DA\n:00000001FF\n".toList written
      (.swapped (A := ":020200000".toList) (B := "1DA\n:00000001FF\n".toList) (by decide)) with h | ⟨_, c, hc, hl⟩
    · exact h
    · exact absurd hl ((by decide +kernel : ∀ c ∈ ":020200000211DA\n:00000001FF\n".toList, ¬ ('a' ≤ c ∧ c ≤ 'f')) c hc)
  · rcases C98_detected ranges built _ ":02020000012DA\n:00000001FF\n".toList written
      (.lost (A := ":02020000012".toList) (B := "DA\n:00000001FF\n".toList)) with h | ⟨_, c, hc, hl⟩
    · exact h
    · exact absurd hl ((by decide +kernel : ∀ c ∈ ":02020000012DA\n:00000001FF\n".toList, ¬ ('a' ≤ c ∧ c ≤ 'f')) c hc)
  · rcases C98_detected ranges built _ ":020200000121DA:00000001FF\n".toList written
      (.lost (A := ":020200000121DA".toList) (B := ":00000001FF\n".toList)) with h | ⟨_, c, hc, hl⟩
    · exact h
    · exact absurd hl ((by decide +kernel : ∀ c ∈ ":020200000121DA:00000001FF\n".toList, ¬ ('a' ≤ c ∧ c ≤ 'f')) c hc)

/-- C98: an object file that is cut off is rejected. -/
theorem C98_cut_off (ranges : List DataRange) (h : ∀ r ∈ ranges, Built r) (A B : Str) (hB : B ≠ [])
    (ht : ihexRepresentationOfDataRanges ranges = .ret (A ++ B)) : readHex A = none := by
  obtain ⟨m, hm⟩ := readable ranges h _ ht
  cases hA : readHex A with
  | none => rfl
  | some m' => exact absurd (readHex_append hA hm) hB

open SlipsExample in
example : readHex ":020200000121DA\n".toList = none :=
  C98_cut_off ranges built _ ":00000001FF\n".toList (by decide) written

/-- C98: an object file followed by something else is rejected. -/
theorem C98_followed (ranges : List DataRange) (h : ∀ r ∈ ranges, Built r) (text B : Str) (hB : B ≠ [])
    (ht : ihexRepresentationOfDataRanges ranges = .ret text) : readHex (text ++ B) = none := by
  obtain ⟨m, hm⟩ := readable ranges h _ ht
  cases hA : readHex (text ++ B) with
  | none => rfl
  | some m' => exact absurd (readHex_append hm hA) hB

open SlipsExample in
example : readHex (":020200000121DA\n:00000001FF\n".toList ++ "\n".toList) = none :=
  C98_followed ranges built _ _ (by decide) written

/-- C98: what the tool leaves behind, even if writing failed, is readable only if it is complete. -/
theorem C98_complete [Target] (env : Env) (program input output t : Str) (m : List (Nat × Nat))
    (hb : bytesTo (destination output) (assembleFile env program input output).events = utf8 t)
    (hm : readHex t = some m) : ∃ text bytes, env.readInput input = .ok text ∧
      Describes wordBinary input text bytes ∧ NoCollision bytes ∧ m = bytes.map fun p => (p.1, p.2.toNat) := by
  have hne : utf8 t ≠ [] := by
    intro e
    have : t = [] := utf8_inj (by rw [e]; rfl)
    subst this
    cases hm
  by_cases hok : ∃ text bytes, env.openInput input = .ok () ∧ env.readInput input = .ok text ∧
      Describes wordBinary input text bytes ∧ NoCollision bytes
  · obtain ⟨text, bytes, ho, hr, hd, hn⟩ := hok
    refine ⟨text, bytes, hr, hd, hn, ?_⟩
    unfold assembleFile at hb
    simp only [ho, hr] at hb
    rcases text_cases env program input output text with ⟨_, _, hno⟩ | ⟨bytes', hex, hd', _, hh, hx⟩
    · exact (hno ⟨bytes, hd, hn⟩).elim
    · cases describes_unique hd hd'
      rw [hx] at hb
      obtain ⟨n, e⟩ := writeResult_bytes env program output hex
      have hb' : utf8 t = (utf8 hex).take n := by rw [← hb, ← e]; rfl
      have := readHex_take hh hb' hm
      subst this
      have := hm.symm.trans hh
      injection this
  · have := (C45_failure env program input output hok).1
    rw [bytesTo_none this] at hb
    exact absurd hb.symm hne

/-- A complete file, and a full disk. -/
example : bytesTo (destination "a.hex".toList) (assembleFile (ToolExample.env ToolExample.source) "c8s".toList "a.s".toList
      "a.hex".toList).events = utf8 ToolExample.hex ∧
    readHex ToolExample.hex = some [(0x200, 0x12), (0x201, 0), (0x202, 7), (0x203, 0x41)] ∧
    bytesTo (destination "a.hex".toList) (assembleFile (ToolExample.full ToolExample.source) "c8s".toList "a.s".toList
      "a.hex".toList).events = utf8 ":04".toList ∧ readHex ":04".toList = none := by decide +kernel

/-- C98: a missing record is not noticed. -/
theorem C98_missing_record : ∃ (ranges : List DataRange) (A line B : Str), (∀ r ∈ ranges, Built r) ∧
    ihexRepresentationOfDataRanges ranges = .ret (A ++ (line ++ '\n' :: B)) ∧
    readHex (A ++ B) ≠ none ∧ readHex (A ++ B) ≠ readHex (A ++ (line ++ '\n' :: B)) := by
  refine ⟨[⟨0x200, [1]⟩, ⟨0x300, [2]⟩], ":0102000001FC\n".toList, ":0103000002FA".toList, ":00000001FF\n".toList, ?_,
    by decide +kernel, by decide +kernel, by decide +kernel⟩
  simp only [List.mem_cons, List.not_mem_nil, or_false, forall_eq_or_imp, forall_eq]
  exact ⟨(C38_built_iff_inMemory _).2 (by decide), (C38_built_iff_inMemory _).2 (by decide)⟩

end C8S
