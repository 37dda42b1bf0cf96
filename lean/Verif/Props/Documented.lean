import Verif.Proofs.Documented

/-! C130: the tool and its documentation. -/

namespace C8S

open Spec

/-- C130: what is documented is one behaviour for each command line and system. -/
theorem C130_unique (env : Env) (args : List Str) : ∃! r : List Event × Exit, Documented env args r.1 r.2 := by
  cases args with
  | nil =>
    refine ⟨([], .panicked), .empty, ?_⟩
    rintro ⟨events, exit⟩ h
    cases h
    rfl
  | cons program words =>
    obtain ⟨wide, _, h⟩ := behaves_wide env program words
    obtain ⟨r, h1, h2⟩ := @C126_unique wide env (program :: words)
    exact ⟨r, (h _ _).2 h1, fun r' h' => h2 r' ((h _ _).1 h')⟩

example (env : Env) : Documented env ["c8s".toList, "--version".toList] [.printed "c8s version 0.1.3\n".toList] (.code 0) :=
  .version (said := [.version]) (.item (said := [.version]) .version .nil) ⟨by decide, by decide, by decide⟩ (by simp) (by simp)

/-- C130: the tool does what is documented, or the input has a binary literal over 4095 with more digits than a word has
bits, which should be reported. -/
theorem C130_deviates [Target] (env : Env) (program : Str) (words : List Str) (events : List Event) (exit : Exit)
    (h : Documented env (program :: words) events exit) :
    main getopts0214 env (program :: words) = ⟨events, exit⟩ ∨
    exit = .code 1 ∧ ∃ input output text, Asks words input output ∧ env.openInput input = .ok () ∧
      env.readInput input = .ok text ∧ Misread usizeBits input text := by
  by_cases hx : ∃ input output text, Asks words input output ∧ env.openInput input = .ok () ∧
      env.readInput input = .ok text ∧ Misread usizeBits input text
  · obtain ⟨input, output, text, ha, h1, h2, hm⟩ := hx
    refine .inr ⟨?_, input, output, text, ha, h1, h2, hm⟩
    have key : ∀ {input' output'}, Asks words input' output' → Handles trueBinary env program input' output' events exit →
        exit = .code 1 := by
      intro input' output' ha' hh
      obtain rfl := asks_input ha ha'
      exact handles_misread h2 hm hh
    cases h with
    | wrong _ => rfl
    | help k1 _ k3 =>
      exfalso
      have hm := (C128_asked env program _ _ _ ha).2
      rw [C64_help env _ _ _ k1 ‹_› k3] at hm
      cases hm
    | version k1 k2 k3 k4 =>
      exfalso
      have hm := (C128_asked env program _ _ _ ha).2
      rw [C64_version env _ _ _ k1 k2 k3 k4] at hm
      cases hm
    | usage => rfl
    | file k1 k2 k3 k4 k5 k6 k7 => exact key ⟨_, k1, k2, k3, k4, k5, .inl k6⟩ k7
    | standard k1 k2 k3 k4 k5 k6 k7 => exact key ⟨_, k1, k2, k3, k4, k5, .inr ⟨k6, rfl⟩⟩ k7
  · refine .inl (behaves_run (behaves_swap (fun i o hi => handles_swap fun t ts h1 h2 hl => ?_) h))
    rcases lex_documented i t with e | hm
    · exact (e ts).1 hl
    · exact (hx ⟨i, o, t, hi, h1, h2, hm⟩).elim

/-- 2 to the power 32, on a machine with 32 bits. -/
example : Misread 32 [] ('%' :: '1' :: List.replicate 32 '0') :=
  ⟨[], '1' :: List.replicate 32 '0', ⟨[], 1, 1, 34⟩,
    (@C03_intended bits64 [] _ (small_of_length bits64 (by decide)) _).1 (by decide +kernel), by decide, by decide +kernel,
    by decide +kernel⟩

/-- C130: when what is documented is success, the tool does exactly that. -/
theorem C130_success [Target] (env : Env) (args : List Str) (events : List Event) (h : Documented env args events (.code 0)) :
    main getopts0214 env args = ⟨events, .code 0⟩ := by
  cases args with
  | nil => cases h
  | cons program words =>
    rcases C130_deviates env program words _ _ h with h | ⟨h, _⟩
    · exact h
    · cases h

example [Target] (env : Env) : main getopts0214 env ["c8s".toList, "--version".toList] =
    ⟨[.printed "c8s version 0.1.3\n".toList], .code 0⟩ :=
  C130_success env _ _ (.version (said := [.version]) (.item (said := [.version]) .version .nil) ⟨by decide, by decide, by decide⟩
    (by simp) (by simp))

/-- C130: if the input has no misread literal, the tool does what is documented and nothing else. -/
theorem C130_exact [Target] (env : Env) (program : Str) (words : List Str) (events : List Event) (exit : Exit)
    (h : ∀ input output text, Asks words input output → env.readInput input = .ok text → ¬ Misread usizeBits input text) :
    main getopts0214 env (program :: words) = ⟨events, exit⟩ ↔ Documented env (program :: words) events exit := by
  obtain ⟨r, h1, h2⟩ := C130_unique env (program :: words)
  have hr : main getopts0214 env (program :: words) = ⟨r.1, r.2⟩ := by
    rcases C130_deviates env program words _ _ h1 with h' | ⟨_, i, o, t, hi, _, ht, hm⟩
    · exact h'
    · exact (h i o t hi ht hm).elim
  constructor
  · intro hm
    rw [hr] at hm
    cases hm
    exact h1
  · intro hd
    rw [hr, ← h2 (events, exit) hd]

/-- C130: no text is misread in which each run of binary digits after a percent sign has at most as many digits as a word has
bits. -/
theorem C130_short [Target] (file text : Str)
    (h : ∀ before s rest, text = before ++ '%' :: s ++ rest → (∀ d ∈ s, Binary d) → s.length ≤ usizeBits) :
    ¬ Misread usizeBits file text := by
  rintro ⟨before, digits, l, hl, hd, hv, hm⟩
  have hs : SmallBinaries text := by
    intro before s rest e hb
    refine Nat.lt_of_lt_of_le (positional_lt 2 s (fun d hd' => ?_)) (Nat.pow_le_pow_right (by omega) (h before s rest e hb))
    rcases hb d hd' with rfl | rfl | rfl <;> decide
  have := (C120_lexical _).1 ⟨file, text, _, l, (C03_intended file text hs _).2 hl, List.mem_append_right _ (List.mem_singleton.2 rfl)⟩
  cases this with
  | binaryRange _ _ h =>
    simp only [wordBinary] at h
    omega

example [Target] : ¬ Misread usizeBits [] ".db %1111".toList := by
  refine C130_short _ _ fun before s rest e _ => ?_
  have hl : s.length ≤ 9 := by
    have := congrArg List.length e
    simp at this
    omega
  have := Target.wide
  simp only [usizeBits] at *
  omega

/-- C130: a tool made of correct steps, of which the first takes a binary literal for the value of its digits, does what is
documented. So there is nothing else to repair. -/
theorem C130_repaired (s : Steps) (h : Correct trueBinary s) (env : Env) (args : List Str) (events : List Event) (exit : Exit) :
    s.main getopts0214 env args = ⟨events, exit⟩ ↔ Documented env args events exit := by
  cases args with
  | nil =>
    constructor
    · intro hm
      cases hm
      exact .empty
    · intro hd
      cases hd
      rfl
  | cons program words =>
    obtain ⟨wide, hl, hb⟩ := behaves_wide env program words
    have e : s.main getopts0214 env (program :: words) = main getopts0214 env (program :: words) := by
      refine steps_main s h getopts0214 env _ ?_
      intro program' rest m input text ha hm hh hv hi ht
      cases ha
      obtain ⟨output, ha⟩ := asks_of_parse hm hh hv hi
      refine run_ext fun r => (h.front input text r).trans (Iff.trans ?_ (front_iff input text r).symm)
      exact exists_congr fun tokens => and_congr_left fun _ => hl input output text tokens ha ht
    rw [e, C126_complete]
    exact (hb events exit).symm

/-- The steps of the code, but with words for all digits of the text in the scanner. -/
def repaired : Steps :=
  { Steps.code List.length id with front := fun file text => (@Steps.code (wideFor text) List.length id).front file text }

/-- C130: the steps of the code become such steps when the scanner has words for all digits of the text. -/
theorem C130_repair : Correct trueBinary repaired where
  front file text r := by
    rw [show repaired.front file text = (@Steps.code (wideFor text) List.length id).front file text from rfl,
      (@C129_code (wideFor text) List.length id).front]
    exact exists_congr fun tokens => and_congr_left fun _ => (lex_wideFor file text tokens).symm
  assemble := (C129_code List.length id).assemble
  overlapping := (C129_code List.length id).overlapping
  write := (C129_code List.length id).write

example : repaired.front "f".toList ".db %101".toList =
    .ret (.ok [.directive ⟨"f".toList, 1, 2, 2⟩ "db".toList [.numeric 5]]) := by decide +kernel

open TargetExample in
/-- What is documented for a number of 33 binary digits is a report; the tool on a machine with 32 bits assembles it. -/
example : (∃ events, Documented files words events (.code 1)) ∧ (@main bits32 getopts0214 files words).exit = .code 0 := by
  refine ⟨⟨(@main bits64 getopts0214 files words).events, ?_⟩, by decide +kernel⟩
  have he : (@main bits64 getopts0214 files words).exit = .code 1 := by decide +kernel
  refine (@C130_exact bits64 files _ _ _ _ fun input output text _ ht => ?_).1 (by rw [← he]; rfl)
  cases ht
  refine @C130_short bits64 _ _ fun before s rest e _ => ?_
  have hl := congrArg List.length e
  simp only [List.length_append, List.length_cons] at hl
  have : long.length = 48 := by decide +kernel
  show s.length ≤ 64
  omega

end C8S
