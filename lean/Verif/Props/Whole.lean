import Verif.Proofs.Whole
import Verif.Proofs.Process
import Verif.Model.Process
import Verif.Props.Profile
import Mathlib.Logic.ExistsUnique

/- C126: a complete specification of the tool. -/

namespace C8S

open Spec

/-- C126: what the tool does with a command line — what it prints, the files it opens, reads, creates and writes, in which
order, and the exit status — is what is specified, and nothing else is. -/
theorem C126_complete [Target] (env : Env) (args : List Str) (events : List Event) (exit : Exit) :
    main getopts0214 env args = ⟨events, exit⟩ ↔ Behaves wordBinary env args events exit := by
  constructor
  · intro h
    obtain ⟨events', exit', h'⟩ := behaves_total env args
    rw [behaves_run h'] at h
    cases h
    exact h'
  · exact behaves_run

/-- A program with a label that is not defined, on a file system where everything succeeds. -/
def undefinedEnv : Env := ⟨fun _ => .ok (), fun _ => .ok "cls\njp a\n".toList, fun _ => .ok (), fun _ _ => .ok ()⟩

example : Behaves wordBinary undefinedEnv ["c8s".toList, "f".toList] [.opening "f".toList, .reading "f".toList,
    .printed "f:2:1-2: error: Unable to resolve label a.\n".toList] (.code 1) :=
  (C126_complete _ _ _ _).1 rfl

/-- A program with a single instruction, on such a file system. -/
def clsEnv : Env := ⟨fun _ => .ok (), fun _ => .ok "cls\n".toList, fun _ => .ok (), fun _ _ => .ok ()⟩

example : Behaves wordBinary clsEnv ["c8s".toList, "f".toList] [.opening "f".toList, .reading "f".toList,
    .created "a.hex".toList, .wrote (.file "a.hex".toList) (utf8 ":0200000000E01E\n:00000001FF\n".toList)] (.code 0) :=
  (C126_complete _ _ _ _).1 rfl

/-- Help is shown whatever the files are. -/
example [Target] (env : Env) : main getopts0214 env ["c8s".toList, "-h".toList] =
    ⟨[.printed (usageText "c8s".toList)], .code 0⟩ :=
  (C126_complete _ _ _ _).2 (.help (said := [.help])
    (.item (.flags (letters := "h".toList) (.help .nil) (by decide)) .nil) (by unfold Once; decide) (by decide))

/-- The specification allows one behaviour, and only one. -/
theorem C126_unique [Target] (env : Env) (args : List Str) :
    ∃! r : List Event × Exit, Behaves wordBinary env args r.1 r.2 := by
  obtain ⟨events, exit, h⟩ := behaves_total env args
  refine ⟨(events, exit), h, ?_⟩
  rintro ⟨events', exit'⟩ h'
  have := (behaves_run h').symm.trans (behaves_run h)
  cases this
  rfl

example : ¬ Behaves wordBinary clsEnv ["c8s".toList, "f".toList] [] (.code 0) := by
  intro h
  have h' := (C126_complete clsEnv ["c8s".toList, "f".toList] [.opening "f".toList, .reading "f".toList,
    .created "a.hex".toList, .wrote (.file "a.hex".toList) (utf8 ":0200000000E01E\n:00000001FF\n".toList)] (.code 0)).1 rfl
  have := (C126_unique clsEnv ["c8s".toList, "f".toList]).unique (y₁ := ([], .code 0)) (y₂ := (_, _)) h h'
  cases this

/-- C126 for a file and an output. -/
theorem C126_file [Target] (env : Env) (program input output : Str) (events : List Event) (exit : Exit) :
    assembleFile env program input output = ⟨events, exit⟩ ↔ Handles wordBinary env program input output events exit := by
  constructor
  · intro h
    obtain ⟨events', exit', h'⟩ := handles_total env program input output
    rw [handles_run h'] at h
    cases h
    exact h'
  · exact handles_run

example : Handles wordBinary clsEnv "c8s".toList "f".toList "-".toList [.opening "f".toList, .reading "f".toList,
    .wrote .stdout (utf8 ":0200000000E01E\n:00000001FF\n".toList)] (.code 0) :=
  (C126_file _ _ _ _ _ _).1 rfl

/-- C126 for a text: either it has one object file, or there is one report of why it has none. -/
theorem C126_text [Target] (program input text : Str) :
    ((∃! hex, HasObject wordBinary input text hex) ∧ ¬ ∃ events, Refused wordBinary program input text events) ∨
    ((∃! events, Refused wordBinary program input text events) ∧ ¬ ∃ hex, HasObject wordBinary input text hex) := by
  have apart : ∀ {hex events}, HasObject wordBinary input text hex → ¬ Refused wordBinary program input text events := by
    intro hex events h1 h2
    let env : Env := ⟨fun _ => .ok (), fun _ => .ok [], fun _ => .ok (), fun _ _ => .ok ()⟩
    have e := (refused_run env "-".toList h2).symm.trans (object_run env program "-".toList h1)
    have : (writeResult env program "-".toList hex).exit = .code 0 := rfl
    rw [← e] at this
    cases this
  rcases refused_or_object program input text with ⟨events, h⟩ | ⟨hex, h⟩
  · refine .inr ⟨⟨events, h, fun events' h' => ?_⟩, fun ⟨hex, h'⟩ => apart h' h⟩
    let env : Env := ⟨fun _ => .ok (), fun _ => .ok [], fun _ => .ok (), fun _ _ => .ok ()⟩
    have := (refused_run env [] h').symm.trans (refused_run env [] h)
    cases this
    rfl
  · refine .inl ⟨⟨hex, h, fun hex' h' => ?_⟩, fun ⟨events, h'⟩ => apart h h'⟩
    exact objectText_unique (hasObject_iff.1 h') (hasObject_iff.1 h)

/-- One text of each sort. -/
example : HasObject wordBinary "f".toList "cls\n".toList ":0200000000E01E\n:00000001FF\n".toList :=
  hasObject_iff.2 ⟨_, _, _, rfl, rfl, rfl, rfl, rfl⟩

example : Refused wordBinary "c8s".toList "f".toList "cls\njp a\n".toList
    [.printed "f:2:1-2: error: Unable to resolve label a.\n".toList] := by
  rcases C126_text "c8s".toList "f".toList "cls\njp a\n".toList with ⟨⟨hex, h, _⟩, _⟩ | ⟨⟨events, h, _⟩, _⟩
  · have := (object_run undefinedEnv "c8s".toList "-".toList h)
    have e : (assembleText undefinedEnv "c8s".toList "f".toList "-".toList "cls\njp a\n".toList).exit = .code 1 := rfl
    rw [this] at e
    cases e
  · have := refused_run undefinedEnv "-".toList h
    have e : assembleText undefinedEnv "c8s".toList "f".toList "-".toList "cls\njp a\n".toList =
      ⟨[.printed "f:2:1-2: error: Unable to resolve label a.\n".toList], .code 1⟩ := rfl
    rw [e] at this
    cases this
    exact h

/-- C126 with a standard output that can fail. -/
theorem C126_console [Target] (console : Console) (env : Env) (args : List Str) (events : List Event) (exit : Exit) :
    mainOn console getopts0214 env args = ⟨events, exit⟩ ↔
      ShownOn console (Behaves wordBinary env args) events exit :=
  shownOn_iff console _ _ (C126_complete env args) events exit

/-- A standard output that takes two characters of a text and fails. -/
def narrow : Console := ⟨fun _ _ => .error 2⟩

example : ShownOn narrow (Behaves wordBinary clsEnv ["c8s".toList, "-v".toList]) [.printed "c8".toList] .panicked :=
  (C126_console _ _ _ _ _).1 rfl

/-- C126 in bytes. -/
theorem C126_bytes [Target] (raw : RawEnv) (args : List (List U8)) (events : List Event) (exit : Exit) :
    mainRaw getopts0214 raw args = ⟨events, exit⟩ ↔ BehavesRaw wordBinary raw args events exit := by
  constructor
  · intro h
    unfold mainRaw at h
    cases e : collectArgs args with
    | panic =>
      rw [e] at h
      cases h
      obtain ⟨a, ha, hn⟩ := (collect_panic _).1 e
      exact .undecodable ha hn
    | ret words =>
      rw [e] at h
      exact .decoded ((collect_iff _ _).1 e) ((sees_env _ _).2 rfl) ((C126_complete _ _ _ _).1 h)
  · intro h
    cases h with
    | undecodable ha hn =>
      unfold mainRaw
      rw [(collect_panic _).2 ⟨_, ha, hn⟩]
    | decoded h1 h2 h3 =>
      rw [C79_arguments getopts0214 raw args _ h1, ← (sees_env _ _).1 h2]
      exact behaves_run h3

/-- The second argument is the letter é in another encoding than UTF-8. -/
example (raw : RawEnv) : BehavesRaw wordBinary raw [[0x63], [0xE9]] [] .panicked := (C126_bytes _ _ _ _).1 rfl

/-- C126 for the process: the arguments and the files in bytes and a standard output that can fail. -/
theorem C126_process [Target] (console : Console) (raw : RawEnv) (args : List (List U8)) (events : List Event) (exit : Exit) :
    process console getopts0214 raw args = ⟨events, exit⟩ ↔
      ShownOn console (BehavesRaw wordBinary raw args) events exit :=
  shownOn_iff console _ _ (C126_bytes raw args) events exit

/-- `c8s -v`, where two characters of the version can be printed. -/
example (raw : RawEnv) :
    ShownOn narrow (BehavesRaw wordBinary raw [[0x63, 0x38, 0x73], [0x2D, 0x76]]) [.printed "c8".toList] .panicked :=
  (C126_process _ _ _ _ _).1 rfl

/-- C126: the process does one thing. -/
theorem C126_process_unique [Target] (console : Console) (raw : RawEnv) (args : List (List U8)) :
    ∃! o : List Event × Exit, ShownOn console (BehavesRaw wordBinary raw args) o.1 o.2 := by
  refine ⟨((process console getopts0214 raw args).events, (process console getopts0214 raw args).exit),
    (C126_process _ _ _ _ _).1 rfl, ?_⟩
  rintro ⟨events, exit⟩ h
  rw [(C126_process _ _ _ _ _).2 h]

example (raw : RawEnv) : ¬ ShownOn narrow (BehavesRaw wordBinary raw [[0x63, 0x38, 0x73], [0x2D, 0x76]]) [] (.code 0) := by
  intro h
  have := (C126_process_unique narrow raw [[0x63, 0x38, 0x73], [0x2D, 0x76]]).unique
    (y₁ := ([], .code 0)) (y₂ := ([.printed "c8".toList], .panicked)) h ((C126_process _ _ _ _ _).1 rfl)
  cases this

/-- C126 for each build, with overflow checks and without: no text that can be read has more than `isize::MAX` bytes. -/
theorem C126_builds [Target] (p : Profile) (env : Env) (args : List Str) (events : List Event) (exit : Exit)
    (h : ∀ path text, env.readInput path = .ok text → (utf8 text).length < 2 ^ (usizeBits - 1)) :
    p.main getopts0214 env args = ⟨events, exit⟩ ↔ Behaves wordBinary env args events exit := by
  have hw : 16 ≤ usizeBits := Target.wide
  rw [C105_main p getopts0214 env args fun path text hr => ?_]
  · exact C126_complete env args events exit
  · have h1 : 2 ^ usizeBits = 2 * 2 ^ (usizeBits - 1) := by
      rw [← Nat.pow_succ']
      congr 1
      omega
    have h2 : 2 ^ 15 ≤ 2 ^ (usizeBits - 1) := Nat.pow_le_pow_right (by omega) (by omega)
    have := h path text hr
    omega

example : Behaves wordBinary clsEnv ["c8s".toList, "-v".toList] [printVersion] (.code 0) :=
  (C126_builds .release clsEnv _ _ _ (by
    intro path text hr
    cases hr
    decide)).1 rfl

end C8S
