import Verif.Spec.Depends
import Verif.Props.Whole

/- C128: what a run depends on. -/

namespace C8S

open Spec

private theorem handles_same {bin : Str → Nat} {env env' : Env} {program input output : Str} {events : List Event}
    {exit : Exit} (h : SameAnswers bin env env' input output) (hh : Handles bin env program input output events exit) :
    Handles bin env' program input output events exit := by
  cases hh with
  | unopened h1 => exact .unopened (h.opens.trans h1)
  | unread h1 h2 => exact .unread (h.opens.trans h1) ((h.reads h1).trans h2)
  | refused h1 h2 h3 => exact .refused (h.opens.trans h1) ((h.reads h1).trans h2) h3
  | uncreated h1 h2 h3 h4 h5 =>
    exact .uncreated (h.opens.trans h1) ((h.reads h1).trans h2) h3 h4 ((h.creates _ _ h1 h2 h3 h4).trans h5)
  | unwritten h1 h2 h3 h4 h5 h6 =>
    exact .unwritten (h.opens.trans h1) ((h.reads h1).trans h2) h3 h4 ((h.creates _ _ h1 h2 h3 h4).trans h5)
      ((h.writes _ _ h1 h2 h3 h4 h5).trans h6)
  | written h1 h2 h3 h4 h5 h6 =>
    exact .written (h.opens.trans h1) ((h.reads h1).trans h2) h3 h4 ((h.creates _ _ h1 h2 h3 h4).trans h5)
      ((h.writes _ _ h1 h2 h3 h4 h5).trans h6)
  | unshown h1 h2 h3 h4 h5 =>
    exact .unshown (h.opens.trans h1) ((h.reads h1).trans h2) h3 h4 ((h.shows _ _ h1 h2 h3 h4).trans h5)
  | shown h1 h2 h3 h4 h5 =>
    exact .shown (h.opens.trans h1) ((h.reads h1).trans h2) h3 h4 ((h.shows _ _ h1 h2 h3 h4).trans h5)

/-- C128: a run depends on nothing but the answers to what it asks: whether the one input can be opened, its text, whether
the one output can be created, and how much of the object file can be written to it. -/
theorem C128_answers [Target] (env env' : Env) (program : Str) (words : List Str)
    (h : ∀ input output, Asks words input output → SameAnswers wordBinary env env' input output) :
    main getopts0214 env' (program :: words) = main getopts0214 env (program :: words) := by
  obtain ⟨events, exit, hb⟩ := behaves_total env (program :: words)
  rw [behaves_run hb]
  refine behaves_run ?_
  cases hb with
  | wrong h1 => exact .wrong h1
  | help h1 h2 h3 => exact .help h1 h2 h3
  | version h1 h2 h3 h4 => exact .version h1 h2 h3 h4
  | usage h1 h2 h3 h4 h5 => exact .usage h1 h2 h3 h4 h5
  | file h1 h2 h3 h4 h5 h6 h7 =>
    exact .file h1 h2 h3 h4 h5 h6 (handles_same (h _ _ ⟨_, h1, h2, h3, h4, h5, .inl h6⟩) h7)
  | standard h1 h2 h3 h4 h5 h6 h7 =>
    exact .standard h1 h2 h3 h4 h5 h6 (handles_same (h _ _ ⟨_, h1, h2, h3, h4, h5, .inr ⟨h6, rfl⟩⟩) h7)

/-- C128: if the command line asks for a file to be assembled to an output, the tool does so, and begins with opening the
file. -/
theorem C128_asked [Target] (env : Env) (program input output : Str) (words : List Str) (h : Asks words input output) :
    main getopts0214 env (program :: words) = assembleFile env program input output ∧
      (main getopts0214 env (program :: words)).events.head? = some (.opening input) := by
  obtain ⟨said, h1, h2, h3, h4, h5, h6⟩ := h
  obtain ⟨events, exit, hh⟩ := handles_total env program input output
  have hm : main getopts0214 env (program :: words) = ⟨events, exit⟩ := by
    rcases h6 with h6 | ⟨h6, rfl⟩
    · exact behaves_run (.file h1 h2 h3 h4 h5 h6 hh)
    · exact behaves_run (.standard h1 h2 h3 h4 h5 h6 hh)
  rw [hm, handles_run hh]
  refine ⟨rfl, ?_⟩
  cases hh <;> rfl

/-- `c8s a.asm` -/
example : Asks ["a.asm".toList] "a.asm".toList "a.hex".toList :=
  ⟨[.word "a.asm".toList], .item (said := [.word "a.asm".toList]) (.word (.inr (by decide))) .nil,
    ⟨by decide, by decide, by decide⟩, by simp,
    by simp, rfl, .inr ⟨by simp, rfl⟩⟩

private theorem handles_touches {bin : Str → Nat} {env : Env} {program input output : Str} {events : List Event} {exit : Exit}
    (h : Handles bin env program input output events exit) {e : Event} (he : e ∈ events) :
    (∃ text, e = .printed text) ∨ e = .opening input ∨ e = .reading input ∨
      output ≠ "-".toList ∧ (e = .created output ∨ ∃ bytes, e = .wrote (.file output) bytes) ∨
      output = "-".toList ∧ ∃ bytes, e = .wrote .stdout bytes := by
  have hp : ∀ message, ∃ text, report program message = .printed text := fun _ => ⟨_, rfl⟩
  cases h with
  | refused _ _ hr =>
    rcases List.mem_cons.1 he with rfl | he
    · exact .inr (.inl rfl)
    rcases List.mem_cons.1 he with rfl | he
    · exact .inr (.inr (.inl rfl))
    refine .inl ?_
    cases hr with
    | syntactic => exact ⟨_, List.mem_singleton.1 he⟩
    | semantic => exact ⟨_, List.mem_singleton.1 he⟩
    | overlap =>
      simp only [List.mem_cons, List.mem_flatMap, List.not_mem_nil, or_false] at he
      rcases he with rfl | rfl | ⟨_, _, rfl | rfl⟩ <;> exact hp _
  | unopened =>
    simp only [List.mem_cons, List.not_mem_nil, or_false] at he
    rcases he with rfl | rfl | rfl
    · exact .inr (.inl rfl)
    · exact .inl (hp _)
    · exact .inl (hp _)
  | unread =>
    simp only [List.mem_cons, List.not_mem_nil, or_false] at he
    rcases he with rfl | rfl | rfl | rfl
    · exact .inr (.inl rfl)
    · exact .inr (.inr (.inl rfl))
    · exact .inl (hp _)
    · exact .inl (hp _)
  | uncreated =>
    simp only [List.mem_cons, List.not_mem_nil, or_false] at he
    rcases he with rfl | rfl | rfl | rfl
    · exact .inr (.inl rfl)
    · exact .inr (.inr (.inl rfl))
    · exact .inl (hp _)
    · exact .inl (hp _)
  | unwritten _ _ _ h4 =>
    simp only [List.mem_cons, List.not_mem_nil, or_false] at he
    rcases he with rfl | rfl | rfl | rfl | rfl | rfl
    · exact .inr (.inl rfl)
    · exact .inr (.inr (.inl rfl))
    · exact .inr (.inr (.inr (.inl ⟨h4, .inl rfl⟩)))
    · exact .inr (.inr (.inr (.inl ⟨h4, .inr ⟨_, rfl⟩⟩)))
    · exact .inl (hp _)
    · exact .inl (hp _)
  | written _ _ _ h4 =>
    simp only [List.mem_cons, List.not_mem_nil, or_false] at he
    rcases he with rfl | rfl | rfl | rfl
    · exact .inr (.inl rfl)
    · exact .inr (.inr (.inl rfl))
    · exact .inr (.inr (.inr (.inl ⟨h4, .inl rfl⟩)))
    · exact .inr (.inr (.inr (.inl ⟨h4, .inr ⟨_, rfl⟩⟩)))
  | unshown _ _ _ h4 =>
    simp only [List.mem_cons, List.not_mem_nil, or_false] at he
    rcases he with rfl | rfl | rfl | rfl | rfl
    · exact .inr (.inl rfl)
    · exact .inr (.inr (.inl rfl))
    · exact .inr (.inr (.inr (.inr ⟨h4, _, rfl⟩)))
    · exact .inl (hp _)
    · exact .inl (hp _)
  | shown _ _ _ h4 =>
    simp only [List.mem_cons, List.not_mem_nil, or_false] at he
    rcases he with rfl | rfl | rfl
    · exact .inr (.inl rfl)
    · exact .inr (.inr (.inl rfl))
    · exact .inr (.inr (.inr (.inr ⟨h4, _, rfl⟩)))

/-- C128: nothing is asked about files that the command line does not name. -/
theorem C128_touches [Target] (env : Env) (program : Str) (words : List Str) (e : Event)
    (he : e ∈ (main getopts0214 env (program :: words)).events) :
    (∃ text, e = .printed text) ∨ ∃ input output, Asks words input output ∧ (e = .opening input ∨ e = .reading input ∨
      output ≠ "-".toList ∧ (e = .created output ∨ ∃ bytes, e = .wrote (.file output) bytes) ∨
      output = "-".toList ∧ ∃ bytes, e = .wrote .stdout bytes) := by
  obtain ⟨events, exit, hb⟩ := behaves_total env (program :: words)
  rw [behaves_run hb] at he
  cases hb with
  | file h1 h2 h3 h4 h5 h6 h7 =>
    exact (handles_touches h7 he).imp_right fun h => ⟨_, _, ⟨_, h1, h2, h3, h4, h5, .inl h6⟩, h⟩
  | standard h1 h2 h3 h4 h5 h6 h7 =>
    exact (handles_touches h7 he).imp_right fun h => ⟨_, _, ⟨_, h1, h2, h3, h4, h5, .inr ⟨h6, rfl⟩⟩, h⟩
  | _ => exact .inl ⟨_, List.mem_singleton.1 he⟩

example : .created "a.hex".toList ∈ (main getopts0214 clsEnv ["c8s".toList, "a.asm".toList]).events := by decide +kernel

/-- There is no file but the input. -/
def missingOthers : Env := { clsEnv with openInput := fun p => if p = "a.asm".toList then .ok () else .error [] }

/-- Other files do not matter. -/
example : main getopts0214 missingOthers ["c8s".toList, "a.asm".toList] =
    main getopts0214 clsEnv ["c8s".toList, "a.asm".toList] := by
  refine C128_answers _ _ _ _ fun input output ha => ⟨?_, fun _ => rfl, fun _ _ _ _ _ _ => rfl, fun _ _ _ _ _ _ _ => rfl,
    fun _ _ _ _ _ _ => rfl⟩
  have h := (C128_asked clsEnv "c8s".toList input output _ ha).2
  have h' : (main getopts0214 clsEnv ["c8s".toList, "a.asm".toList]).events.head? = some (.opening "a.asm".toList) := by
    decide +kernel
  cases h.symm.trans h'
  rfl

/-- C128: if nothing is asked for to be assembled, the files and the answers of the system do not matter at all. -/
theorem C128_none [Target] (env env' : Env) (program : Str) (words : List Str) (h : ¬ ∃ input output, Asks words input output) :
    main getopts0214 env' (program :: words) = main getopts0214 env (program :: words) :=
  C128_answers env env' program words fun input output ha => (h ⟨input, output, ha⟩).elim

example (env : Env) : main getopts0214 env ["c8s".toList, "-v".toList] = main getopts0214 clsEnv ["c8s".toList, "-v".toList] := by
  refine C128_none _ _ _ _ ?_
  rintro ⟨input, output, ha⟩
  have h := (C128_asked clsEnv "c8s".toList input output _ ha).2
  have h' : (main getopts0214 clsEnv ["c8s".toList, "-v".toList]).events.head? = some printVersion := by decide +kernel
  cases h.symm.trans h'

/-- C128: if the source text has no object file, only the input matters. -/
theorem C128_refused [Target] (env env' : Env) (program input output text : Str) (ho : env.openInput input = .ok ())
    (hr : env.readInput input = .ok text) (ho' : env'.openInput input = .ok ()) (hr' : env'.readInput input = .ok text)
    (h : ¬ ∃ hex, HasObject wordBinary input text hex) :
    assembleFile env' program input output = assembleFile env program input output := by
  obtain ⟨events, exit, hb⟩ := handles_total env program input output
  rw [handles_run hb]
  refine handles_run (handles_same ⟨ho'.trans ho.symm, fun _ => hr'.trans hr.symm, ?_, ?_, ?_⟩ hb)
  · intro t hex _ ht hx
    cases hr.symm.trans ht
    exact (h ⟨hex, hx⟩).elim
  · intro t hex _ ht hx
    cases hr.symm.trans ht
    exact (h ⟨hex, hx⟩).elim
  · intro t hex _ ht hx
    cases hr.symm.trans ht
    exact (h ⟨hex, hx⟩).elim

/-- `jp a` without a definition of `a`: whether the output can be created does not matter. -/
example : assembleFile { undefinedEnv with createOutput := fun _ => .error [] } [] "a.asm".toList "a.hex".toList =
    assembleFile undefinedEnv [] "a.asm".toList "a.hex".toList := by
  refine C128_refused _ _ _ _ _ "cls\njp a\n".toList rfl rfl rfl rfl ?_
  rintro ⟨hex, h⟩
  have h1 := handles_run (env := undefinedEnv) (program := []) (.shown (output := "-".toList) (text := "cls\njp a\n".toList) rfl rfl h rfl rfl)
  have h2 : (assembleFile undefinedEnv [] "a.asm".toList "-".toList).exit = .code 1 := by decide +kernel
  rw [h1] at h2
  cases h2

private theorem each_same {program program' : Str} : ∀ events : List Event, Each (Renamed program program') events events
  | [] => .nil
  | _ :: rest => .cons .same (each_same rest)

private theorem refused_renamed {bin : Str → Nat} {program program' file text : Str} {events : List Event}
    (h : Refused bin program file text events) :
    ∃ events', Refused bin program' file text events' ∧ Each (Renamed program program') events events' := by
  cases h with
  | syntactic h1 h2 => exact ⟨_, .syntactic h1 h2, each_same _⟩
  | semantic h1 h2 h3 => exact ⟨_, .semantic h1 h2 h3, each_same _⟩
  | @overlap sections h1 h2 =>
    refine ⟨_, .overlap h1 h2, .cons .report (.cons .report ?_)⟩
    generalize collisions sections = cs
    induction cs with
    | nil => exact .nil
    | cons c cs ih =>
      rw [List.flatMap_cons, List.flatMap_cons]
      exact .cons .report (.cons .report ih)

private theorem handles_renamed {bin : Str → Nat} {env : Env} {program program' input output : Str} {events : List Event}
    {exit : Exit} (h : Handles bin env program input output events exit) :
    ∃ events', Handles bin env program' input output events' exit ∧ Each (Renamed program program') events events' := by
  cases h with
  | unopened h1 => exact ⟨_, .unopened h1, .cons .same (.cons .report (.cons .report .nil))⟩
  | unread h1 h2 => exact ⟨_, .unread h1 h2, .cons .same (.cons .same (.cons .report (.cons .report .nil)))⟩
  | refused h1 h2 h3 =>
    obtain ⟨events', g1, g2⟩ := refused_renamed (program' := program') h3
    exact ⟨_, .refused h1 h2 g1, .cons .same (.cons .same g2)⟩
  | uncreated h1 h2 h3 h4 h5 =>
    exact ⟨_, .uncreated h1 h2 h3 h4 h5, .cons .same (.cons .same (.cons .report (.cons .report .nil)))⟩
  | unwritten h1 h2 h3 h4 h5 h6 =>
    exact ⟨_, .unwritten h1 h2 h3 h4 h5 h6,
      .cons .same (.cons .same (.cons .same (.cons .same (.cons .report (.cons .report .nil)))))⟩
  | written h1 h2 h3 h4 h5 h6 => exact ⟨_, .written h1 h2 h3 h4 h5 h6, each_same _⟩
  | unshown h1 h2 h3 h4 h5 =>
    exact ⟨_, .unshown h1 h2 h3 h4 h5, .cons .same (.cons .same (.cons .same (.cons .report (.cons .report .nil))))⟩
  | shown h1 h2 h3 h4 h5 => exact ⟨_, .shown h1 h2 h3 h4 h5, each_same _⟩

/-- C128: under another name the tool does the same and ends in the same way, but for its name in what it prints. -/
theorem C128_name [Target] (env : Env) (program program' : Str) (words : List Str) :
    Each (Renamed program program') (main getopts0214 env (program :: words)).events
      (main getopts0214 env (program' :: words)).events ∧
    (main getopts0214 env (program' :: words)).exit = (main getopts0214 env (program :: words)).exit := by
  obtain ⟨events, exit, hb⟩ := behaves_total env (program :: words)
  rw [behaves_run hb]
  have key : ∃ events', Behaves wordBinary env (program' :: words) events' exit ∧
      Each (Renamed program program') events events' := by
    cases hb with
    | wrong h1 => exact ⟨_, .wrong h1, .cons .report .nil⟩
    | help h1 h2 h3 => exact ⟨_, .help h1 h2 h3, .cons .usage .nil⟩
    | version h1 h2 h3 h4 => exact ⟨_, .version h1 h2 h3 h4, each_same _⟩
    | usage h1 h2 h3 h4 h5 => exact ⟨_, .usage h1 h2 h3 h4 h5, .cons .usage .nil⟩
    | file h1 h2 h3 h4 h5 h6 h7 =>
      obtain ⟨events', g1, g2⟩ := handles_renamed (program' := program') h7
      exact ⟨_, .file h1 h2 h3 h4 h5 h6 g1, g2⟩
    | standard h1 h2 h3 h4 h5 h6 h7 =>
      obtain ⟨events', g1, g2⟩ := handles_renamed (program' := program') h7
      exact ⟨_, .standard h1 h2 h3 h4 h5 h6 g1, g2⟩
  obtain ⟨events', h1, h2⟩ := key
  rw [behaves_run h1]
  exact ⟨h2, rfl⟩

/-- The version is the same, the usage is not. -/
example : (main getopts0214 clsEnv ["x".toList, "-h".toList]).events ≠ (main getopts0214 clsEnv ["y".toList, "-h".toList]).events ∧
    (main getopts0214 clsEnv ["x".toList, "-v".toList]).events = (main getopts0214 clsEnv ["y".toList, "-v".toList]).events :=
  ⟨by decide +kernel, by decide +kernel⟩

end C8S
