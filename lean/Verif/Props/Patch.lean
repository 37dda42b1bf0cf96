import Verif.Proofs.Patch

/-! C131: a repair of one function makes the tool as documented, on every machine. -/

namespace C8S

open Spec

/-- C131: the patched conversion gives the value of the digits, on every machine. -/
theorem C131_patch [Target] : Converts trueBinary patchedBinStr := by
  intro digits _ hd
  rw [patchedBinStr, patchedLoop_eq digits digits hd 0 (by omega)]
  exact ⟨fun h => if_pos h, fun h => if_neg (by unfold trueBinary positional at h; omega)⟩

/-- C131: the scanner yields the tokens of the text, for any conversion of binary digits and the values it gives them. -/
theorem C131_scan [Target] (bin : Str → Nat) (conv : Str → Except ScanError Nat) (h : Converts bin conv) (file text : Str)
    (tokens : List Token) : scanWith conv file text = .ret tokens ↔ Lex bin file [] text tokens := by
  obtain ⟨ts, h1, h2⟩ := drainWith_lex h (byteLen text + 1) (at_new file text) (by have := length_le_byteLen text; omega)
  rw [scanWith, h1]
  constructor
  · intro e
    cases e
    exact h2
  · intro hl
    rw [lex_unique hl h2]

example [Target] (file text : Str) : ∃ tokens, scanWith patchedBinStr file text = .ret tokens ∧ Lex trueBinary file [] text tokens := by
  obtain ⟨ts, h1, h2⟩ := drainWith_lex C131_patch (byteLen text + 1) (at_new file text) (by have := length_le_byteLen text; omega)
  exact ⟨ts, h1, h2⟩

/-- C131: the conversion of the code gives the value modulo the word, and with it the scanner is that of the code. -/
theorem C131_code [Target] : Converts wordBinary parse12BitBinStr ∧
    ∀ file text, scanWith parse12BitBinStr file text = scan file text := by
  have h : Converts wordBinary parse12BitBinStr := by
    intro digits _ hd
    rw [parse12_eq hd]
    exact ⟨fun h => if_pos h, fun h => if_neg (by omega)⟩
  exact ⟨h, fun file text => run_ext fun ts => (C131_scan _ _ h file text ts).trans (scan_iff_lex file text ts).symm⟩

/-- 2 to the power 16, on a machine with 16 bits: read as 0 by the code, and reported by the patched conversion. -/
example : @parse12BitBinStr ⟨16, by decide⟩ ('1' :: List.replicate 16 '0') = .ok 0 ∧
    @patchedBinStr ⟨16, by decide⟩ ('1' :: List.replicate 16 '0') =
      .error (.binaryLiteralOutOfRange ('1' :: List.replicate 16 '0')) := ⟨rfl, rfl⟩

example : @patchedBinStr ⟨16, by decide⟩ "1111.1111111".toList = .ok 0xF7F := rfl

/-- The steps of the code (main.rs:53-83), but with this conversion of binary digits. -/
def stepsWith [Target] (conv : Str → Except ScanError Nat) : Steps :=
  { Steps.code List.length id with front := fun file text => scanWith conv file text >>= parse }

/-- C131: whatever conversion gives the value of the digits, with it the tool does what is documented and nothing else. -/
theorem C131_tool [Target] (conv : Str → Except ScanError Nat) (h : Converts trueBinary conv) (env : Env) (args : List Str)
    (events : List Event) (exit : Exit) :
    (stepsWith conv).main getopts0214 env args = ⟨events, exit⟩ ↔ Documented env args events exit := by
  refine C130_repaired (stepsWith conv) ⟨fun file text r => ?_, (C129_code List.length id).assemble,
    (C129_code List.length id).overlapping, (C129_code List.length id).write⟩ env args events exit
  show (scanWith conv file text >>= parse) = _ ↔ _
  obtain ⟨ts, h1, h2⟩ := drainWith_lex h (byteLen text + 1) (at_new file text) (by have := length_le_byteLen text; omega)
  rw [show scanWith conv file text = .ret ts from h1]
  constructor
  · intro hp
    exact ⟨ts, h2, (C127_parse _ _).1 hp⟩
  · rintro ⟨ts', hl, hp⟩
    obtain rfl := lex_unique h2 hl
    exact (C127_parse _ _).2 hp

/-- C131: so does the tool with the patched conversion, on every machine. -/
theorem C131_patched [Target] (env : Env) (args : List Str) (events : List Event) (exit : Exit) :
    (stepsWith patchedBinStr).main getopts0214 env args = ⟨events, exit⟩ ↔ Documented env args events exit :=
  C131_tool _ C131_patch env args events exit

example : (@stepsWith ⟨16, by decide⟩ (@patchedBinStr ⟨16, by decide⟩)).front "f".toList ".db %101".toList =
    .ret (.ok [.directive ⟨"f".toList, 1, 2, 2⟩ "db".toList [.numeric 5]]) := by decide +kernel

/-- C131: nothing less will do. If the tool does what is documented with some conversion, this gives the value of the digits up
to 4095, and reports that the literal is out of range above. -/
theorem C131_needed [Target] (conv : Str → Except ScanError Nat)
    (h : ∀ env args events exit, (stepsWith conv).main getopts0214 env args = ⟨events, exit⟩ ↔ Documented env args events exit)
    (digits : Str) (hn : digits ≠ []) (hd : ∀ d ∈ digits, Binary d) :
    (trueBinary digits ≤ 4095 → conv digits = .ok (trueBinary digits)) ∧
    (4095 < trueBinary digits → ∃ s, conv digits = .error (.binaryLiteralOutOfRange s)) := by
  have key : ∀ conv' m, aloneMessage (aloneToken conv' "f".toList digits) = .ret m →
      (stepsWith conv').main getopts0214 (aloneEnv ('%' :: digits)) ["c8s".toList, "f".toList] =
        ⟨[.opening "f".toList, .reading "f".toList, .printed (m ++ "\n".toList)], .code 1⟩ := by
    intro conv' m hm
    have e : ∀ out, (stepsWith conv').assembleText (aloneEnv ('%' :: digits)) "c8s".toList "f".toList out ('%' :: digits) =
        ⟨[.printed (m ++ "\n".toList)], .code 1⟩ := by
      intro out
      unfold Steps.assembleText
      rw [show (stepsWith conv').front "f".toList ('%' :: digits) = (scanWith conv' "f".toList ('%' :: digits) >>= parse) from rfl,
        scanWith_alone conv' _ _ hn hd, Run.ret_bind, parse_alone]
      simp only [aloneMessage] at hm
      simp only [hm]
    show (⟨_, _⟩ : Outcome) = _
    rw [e]
  obtain ⟨m, hm⟩ := message_some (aloneToken conv "f".toList digits)
  obtain ⟨m', hm'⟩ := message_some (aloneToken patchedBinStr "f".toList digits)
  have e := ((key _ _ hm).symm.trans ((h _ _ _ _).2 ((C131_patched _ _ _ _).1 (key _ _ hm'))))
  have : m = m' := by
    simp only [Outcome.mk.injEq, List.cons.injEq, Event.printed.injEq, List.append_cancel_right_eq, and_true, true_and] at e
    exact e
  subst this
  obtain ⟨h1, h2⟩ := C131_patch digits hn hd
  rcases message_alone (hm.trans hm'.symm) with ⟨v, k1, k2⟩ | ⟨x, y, k1, k2, k3⟩
  · refine ⟨fun hv => ?_, fun hv => ?_⟩
    · rw [k1, ← k2, h1 hv]
    · rw [h2 hv] at k2
      cases k2
  · refine ⟨fun hv => ?_, fun hv => ?_⟩
    · rw [h1 hv] at k2
      cases k2
    · rw [h2 hv] at k2
      cases k2
      obtain ⟨s', rfl⟩ := out_of_range_display k3
      exact ⟨s', k1⟩

/-- The patched conversion meets the hypothesis, the conversion of the code does not. -/
example [Target] (env : Env) (args : List Str) (events : List Event) (exit : Exit) :
    (stepsWith patchedBinStr).main getopts0214 env args = ⟨events, exit⟩ ↔ Documented env args events exit :=
  C131_patched env args events exit

example : ¬ ∀ env args events exit, (@stepsWith ⟨16, by decide⟩ (@parse12BitBinStr ⟨16, by decide⟩)).main getopts0214 env args =
    ⟨events, exit⟩ ↔ Documented env args events exit := by
  intro h
  obtain ⟨s, hs⟩ := (@C131_needed ⟨16, by decide⟩ _ h ('1' :: List.replicate 16 '0') (by decide) (by decide)).2 (by decide)
  exact absurd hs (by
    rw [show @parse12BitBinStr ⟨16, by decide⟩ ('1' :: List.replicate 16 '0') = .ok 0 from rfl]
    simp)

end C8S
