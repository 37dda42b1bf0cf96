import Verif.Spec.Reports
import Verif.Spec.Files
import Verif.Model.Console
import Verif.Proofs.Files

/- Lemmas on what is printed. -/

namespace C8S

open Spec

theorem logProgramError_report (program reason : Str) : logProgramError program reason = report program reason := by
  simp [logProgramError, report]

theorem overlapReports_eq {program : Str} {shown : DataRange → Str} {pairs : List (DataRange × DataRange)}
    (h : ∀ p ∈ pairs, p.1.display = .ret (shown p.1) ∧ p.2.display = .ret (shown p.2)) :
    overlapReports program pairs = .ret (pairs.flatMap fun p =>
      [report program ("  range ".toList ++ shown p.1 ++ " overlaps with:".toList),
       report program ("  range ".toList ++ shown p.2)]) := by
  induction pairs with
  | nil => rfl
  | cons p rest ih =>
    obtain ⟨a, b⟩ := p
    have h1 := ih fun p hp => h p (List.mem_cons_of_mem _ hp)
    obtain ⟨ha, hb⟩ := h (a, b) List.mem_cons_self
    simp only at ha hb
    simp only [overlapReports, ha, hb, h1, Run.ret_bind, Run.pure_eq, List.flatMap_cons, logProgramError_report]
    rfl

/-- No effect on files comes after something has been printed. -/
def PrintsLast : List Event → Prop
  | [] => True
  | .printed _ :: rest => NoOutput rest
  | _ :: rest => PrintsLast rest

theorem printsLast_of_noOutput : ∀ {events : List Event}, NoOutput events → PrintsLast events
  | [], _ => trivial
  | .printed _ :: _, h => fun e he => h e (List.mem_cons_of_mem _ he)
  | .opening _ :: rest, h => printsLast_of_noOutput (events := rest) fun e he => h e (List.mem_cons_of_mem _ he)
  | .reading _ :: rest, h => printsLast_of_noOutput (events := rest) fun e he => h e (List.mem_cons_of_mem _ he)
  | .created _ :: rest, h => printsLast_of_noOutput (events := rest) fun e he => h e (List.mem_cons_of_mem _ he)
  | .wrote _ _ :: rest, h => printsLast_of_noOutput (events := rest) fun e he => h e (List.mem_cons_of_mem _ he)

theorem printsLast_write (env : Env) (program output hex : Str) :
    PrintsLast (writeResult env program output hex).events := by
  have h1 : ∀ a b, NoOutput [logProgramError program a, logProgramError program b] := by
    intro a b e he
    simp only [List.mem_cons, List.not_mem_nil, or_false, logProgramError] at he
    rcases he with rfl | rfl <;> simp
  unfold writeResult
  simp only
  split
  · exact printsLast_of_noOutput (h1 _ _)
  · rename_i evs hev
    have hevs : evs = [] ∨ evs = [.created output] := by
      split at hev
      · cases hev; exact .inl rfl
      · split at hev
        · cases hev
        · cases hev; exact .inr rfl
    split
    · rcases hevs with rfl | rfl <;> trivial
    · rename_i reason _ _
      have := printsLast_of_noOutput
        (h1 ("Unable to write result to output file '".toList ++ output ++ "'".toList) reason)
      rcases hevs with rfl | rfl <;> exact this

theorem printsLast_file [Target] (env : Env) (program input output : Str) :
    PrintsLast (assembleFile env program input output).events := by
  rcases files_cases env program input output with ⟨h, _⟩ | ⟨text, hex, _, _, _, e⟩
  · exact printsLast_of_noOutput h
  · rw [e]
    exact printsLast_write env program output hex

theorem printsLast_main [Target] (getopts : Getopts) (env : Env) (arguments : List Str) :
    PrintsLast (main getopts env arguments).events := by
  have hone : ∀ t, PrintsLast [.printed t] := fun t e he => by cases he
  unfold main
  split
  · trivial
  · simp only
    split
    · exact hone _
    · split
      · exact hone _
      · split
        · exact hone _
        · split
          · exact printsLast_file _ _ _ _
          · exact hone _

theorem shows_nil (console : Console) (before : List Event) : Shows console before [] := by
  intro p t r h
  simp at h

theorem shows_cons {console : Console} {before done : List Event} {e : Event}
    (he : ∀ t, e = .printed t → console.print before t = .ok ()) (h : Shows console (before ++ [e]) done) :
    Shows console before (e :: done) := by
  intro p t r hp
  cases p with
  | nil =>
    cases hp
    simpa using he t rfl
  | cons x p =>
    simp only [List.cons_append, List.cons.injEq] at hp
    obtain ⟨rfl, hp⟩ := hp
    simpa using h p t r hp

theorem onConsole_other (console : Console) {e : Event} (he : ∀ t, e ≠ .printed t) (before rest : List Event) (exit : Exit) :
    onConsole console before (e :: rest) exit = onConsole console (before ++ [e]) rest exit := by
  cases e with
  | printed t => exact (he t rfl).elim
  | _ => rfl

/-- A run on a standard output either goes as if that could not fail, and it does not, or ends where printing first fails. -/
theorem onConsole_cases (console : Console) (events before : List Event) (exit : Exit) :
    (Shows console before events ∧ onConsole console before events exit = ⟨before ++ events, exit⟩) ∨
    ∃ done text k rest, events = done ++ .printed text :: rest ∧ Shows console before done ∧
      console.print (before ++ done) text = .error k ∧
      onConsole console before events exit = ⟨before ++ done ++ [.printed (text.take k)], .panicked⟩ := by
  induction events generalizing before with
  | nil => exact .inl ⟨shows_nil _ _, by simp [onConsole]⟩
  | cons e rest ih =>
    by_cases he : ∃ t, e = .printed t
    · obtain ⟨text, rfl⟩ := he
      unfold onConsole
      cases hp : console.print before text with
      | error k => exact .inr ⟨[], text, k, rest, rfl, shows_nil _ _, by simpa using hp, by simp⟩
      | ok u =>
        have hok : ∀ t, Event.printed text = .printed t → console.print before t = .ok () := by
          rintro t h
          cases h
          exact hp
        simp only
        rcases ih (before ++ [.printed text]) with ⟨hs, h⟩ | ⟨done, t, k, r, rfl, hs, h1, h2⟩
        · exact .inl ⟨shows_cons hok hs, by rw [h]; simp⟩
        · exact .inr ⟨.printed text :: done, t, k, r, rfl, shows_cons hok hs, by simpa using h1, by rw [h2]; simp⟩
    · have he' : ∀ t, e ≠ .printed t := fun t h => he ⟨t, h⟩
      rw [onConsole_other console he']
      rcases ih (before ++ [e]) with ⟨hs, h⟩ | ⟨done, t, k, r, rfl, hs, h1, h2⟩
      · exact .inl ⟨shows_cons (fun t h => (he' t h).elim) hs, by rw [h]; simp⟩
      · exact .inr ⟨e :: done, t, k, r, rfl, shows_cons (fun t h => (he' t h).elim) hs, by simpa using h1, by rw [h2]; simp⟩

theorem printsLast_after {text : Str} {rest : List Event} : ∀ {done : List Event},
    PrintsLast (done ++ .printed text :: rest) → NoOutput rest
  | [], h => h
  | .printed _ :: done, h => fun e he => h e (by simp [he])
  | .opening _ :: done, h => printsLast_after (done := done) h
  | .reading _ :: done, h => printsLast_after (done := done) h
  | .created _ :: done, h => printsLast_after (done := done) h
  | .wrote _ _ :: done, h => printsLast_after (done := done) h

end C8S
