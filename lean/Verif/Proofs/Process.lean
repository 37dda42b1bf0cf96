import Verif.Proofs.Whole
import Verif.Props.Bytes
import Verif.Proofs.Reports

/-! Lemmas for C126 in bytes and on a standard output that can fail. -/

namespace C8S

open Spec

theorem shownOn_iff (console : Console) (o : Outcome) (intended : List Event → Exit → Prop)
    (ho : ∀ events exit, o = ⟨events, exit⟩ ↔ intended events exit) (events : List Event) (exit : Exit) :
    onConsole console [] o.events o.exit = ⟨events, exit⟩ ↔ ShownOn console intended events exit := by
  cases o with
  | mk events' exit' =>
    have hi := (ho events' exit').1 rfl
    dsimp only
    constructor
    · intro h
      rcases onConsole_cases console events' [] exit' with ⟨hs, e⟩ | ⟨done, text, k, rest, he, hs, hp, e⟩
      · rw [e, List.nil_append] at h
        cases h
        exact .shown hi hs
      · rw [e, List.nil_append] at h
        rw [List.nil_append] at hp
        cases h
        subst he
        exact .broken hi hs hp
    · intro h
      cases h with
      | shown hb hs =>
        cases (ho _ _).2 hb
        rcases onConsole_cases console events [] exit with ⟨_, e⟩ | ⟨done, text, k, rest, he, _, hp, _⟩
        · rw [e, List.nil_append]
        · have := hs done text rest he
          rw [hp] at this
          cases this
      | @broken done rest text exit'' k hb hs hp =>
        cases (ho _ _).2 hb
        rcases onConsole_cases console (done ++ .printed text :: rest) [] exit' with
          ⟨hs', _⟩ | ⟨done', text', k', rest', he, hs', hp', h⟩
        · have := hs' done text rest rfl
          rw [List.nil_append, hp] at this
          cases this
        · rw [h]
          rw [List.nil_append] at hp' ⊢
          rcases List.append_eq_append_iff.1 he with ⟨a, h1, h2⟩ | ⟨a, h1, h2⟩
          · cases a with
            | nil =>
              simp only [List.append_nil] at h1
              subst h1
              simp only [List.nil_append, List.cons.injEq, Event.printed.injEq] at h2
              obtain ⟨rfl, _⟩ := h2
              rw [hp] at hp'
              cases hp'
              rfl
            | cons x a =>
              simp only [List.cons_append, List.cons.injEq] at h2
              obtain ⟨rfl, _⟩ := h2
              have := hs' done text a h1
              rw [List.nil_append, hp] at this
              cases this
          · cases a with
            | nil =>
              simp only [List.append_nil] at h1
              subst h1
              simp only [List.nil_append, List.cons.injEq, Event.printed.injEq] at h2
              obtain ⟨rfl, _⟩ := h2
              rw [hp] at hp'
              cases hp'
              rfl
            | cons x a =>
              simp only [List.cons_append, List.cons.injEq] at h2
              obtain ⟨rfl, _⟩ := h2
              have := hs done' text' a h1
              rw [List.nil_append, hp'] at this
              cases this

/-- There is one text system for each system of bytes. -/
theorem sees_env (raw : RawEnv) (env : Env) : Sees raw env ↔ env = raw.env := by
  have readsAs : ∀ path r, ReadsAs raw path r ↔ r = raw.readToString path := by
    intro path r
    unfold RawEnv.readToString
    constructor
    · intro h
      cases h with
      | failed h => simp only [h]
      | text h1 h2 => simp only [h1, (C79_decode _ _).2 h2]
      | invalid h1 h2 => simp only [h1, not_decoded h2]
    · rintro rfl
      cases h : raw.readInput path with
      | error reason => exact .failed h
      | ok bytes =>
        cases hd : fromUtf8 bytes with
        | none =>
          simp only [hd]
          refine .invalid h ?_
          rintro ⟨text, ht⟩
          rw [(C79_decode _ _).2 ht] at hd
          cases hd
        | some text =>
          simp only [hd]
          exact .text h ((C79_decode _ _).1 hd)
  constructor
  · rintro ⟨h1, h2, h3, h4⟩
    cases env with
    | mk o r c w =>
      have e1 : o = raw.openInput := funext h1
      have e2 : r = raw.readToString := funext fun path => (readsAs _ _).1 (h2 path)
      have e3 : c = raw.createOutput := funext h3
      have e4 : w = raw.writeOutput := funext fun d => funext (h4 d)
      subst e1 e2 e3 e4
      rfl
  · rintro rfl
    exact ⟨fun _ => rfl, fun path => (readsAs _ _).2 rfl, fun _ => rfl, fun _ _ => rfl⟩

end C8S
