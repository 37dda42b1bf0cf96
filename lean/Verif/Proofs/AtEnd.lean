import Verif.Proofs.Bounds

/- Lemmas on the end of the token stream (C95). -/

namespace C8S

open Spec

theorem lexeme_token {bin : Str → Nat} {t : Str} {k : Loc → Token} (h : Lexeme bin t k) (hk : ¬ IsError k) (l : Loc)
    (e : ScanError) (l' : Loc) : k l ≠ .error e l' := by
  cases h <;> first | (intro hc; cases hc; done) | (exact fun _ => hk ⟨_, rfl⟩)

theorem visits_next [Target] {file text : Str} {s s' : Scanner} {t : Option Token} (h : Visits file text s)
    (hn : s.nextToken = .ret (t, s')) :
    (t = none → s'.position = byteLen s'.input ∧
      (s.position < byteLen s.input → ∃ before rest, text = before ++ rest ∧ rest ≠ [] ∧ ∀ c ∈ rest, Blank c)) ∧
    ∀ e l, t = some (.error e l) → s'.position = byteLen s'.input := by
  obtain ⟨hb, ⟨before, rest, h⟩ | h⟩ := visits_bounded h
  · have hin : text = before ++ rest := hb.1.symm.trans h.input
    obtain ⟨s1, hw, h1⟩ := consumeWhitespace_eq h
    unfold Scanner.nextToken at hn
    rw [hw] at hn
    simp only [Run.ret_bind] at hn
    cases hd : rest.dropWhile isBlank with
    | nil =>
      rw [hd] at h1
      rw [if_pos (h1.isAtEnd.2 rfl)] at hn
      cases hn
      refine ⟨fun _ => ⟨?_, fun hlt => ⟨before, rest, hin, ?_, ?_⟩⟩, fun e l hc => by cases hc⟩
      · rw [h1.position, h1.input, List.append_nil]
      · rintro rfl
        rw [h.position, h.input, List.append_nil] at hlt
        omega
      · intro c hc
        have hsplit := run_split isBlank rest
        rw [hd, List.append_nil] at hsplit
        rw [hsplit] at hc
        exact (isBlank_iff c).1 (run_all _ _ _ hc)
    | cons c r =>
      rw [hd] at h1
      rw [if_neg (fun hc => by have := h1.isAtEnd.1 hc; cases this), h1.charAt] at hn
      simp only [Run.ret_bind] at hn
      have hstep := step_dispatch h1
      generalize s1.dispatch c = out at hstep hn
      cases hstep with
      | @token t rest' k he hL hE =>
        cases hn
        refine ⟨fun hc => (by cases hc), fun e l hc => ?_⟩
        injection hc with hc
        exact (lexeme_token hL.1 hE _ _ _ hc).elim
      | @outOfRange t rest' k s' he hL hE hs =>
        cases hn
        exact ⟨fun hc => (by cases hc), fun e l hc => by rw [hs]; rfl⟩
      | malformed _ _ _ =>
        cases hn
        exact ⟨fun hc => (by cases hc), fun e l hc => rfl⟩
  · rw [nextToken_stopped h] at hn
    cases hn
    exact ⟨fun _ => ⟨h, fun hlt => by omega⟩, fun e l hc => by cases hc⟩

theorem atEnd_iff [Target] {file text : Str} {s : Scanner} (h : Visits file text s) :
    s.isAtEnd = true ↔ s.position = byteLen s.input := by
  have hb := (visits_bounded h).1
  have h1 := hb.2.1
  rw [← hb.1] at h1
  unfold Scanner.isAtEnd
  rw [decide_eq_true_iff]
  omega

end C8S
