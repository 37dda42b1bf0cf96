import Verif.Proofs.Files
import Verif.Props.Tool
import Verif.Props.CommandLine

/- Property C75: what runs make of the files. -/

namespace C8S

open Spec

/-! ### Examples -/

namespace FilesExample

open ToolExample

/-- One source file, and a file that is in the way of the output. -/
def files : Files := fun p =>
  if p = "in.s".toList then some (utf8 source) else if p = "a.hex".toList then some [1, 2, 3] else none

/-- The source file, and nothing else, can be read. -/
def only (path text : Str) (e : Env) : Env :=
  ⟨fun p => if p = path then .ok () else .error "none".toList, fun p => if p = path then .ok text else .error "none".toList,
    e.createOutput, e.writeOutput⟩

theorem only_reads {path text : Str} {e : Env} {w : Files} (h : w path = some (utf8 text)) :
    Reads (only path text e) w := by
  intro p t h1 h2
  simp only [only] at h1 h2
  by_cases e : p = path
  · subst e
    rw [if_pos rfl] at h2
    cases h2
    exact h
  · rw [if_neg e] at h1
    cases h1

theorem run_files : (assembleFile (only "in.s".toList source (env [])) [] "in.s".toList "a.hex".toList) =
    ⟨[.opening "in.s".toList, .reading "in.s".toList, .created "a.hex".toList,
      .wrote (.file "a.hex".toList) (utf8 hex)], .code 0⟩ := by
  decide +kernel

end FilesExample

open ToolExample FilesExample

/-- C75: no file other than the output is changed, on success or failure. Nothing is changed if the output is `-`. -/
theorem C75_others [Target] (w : Files) (env : Env) (program input output path : Str)
    (h : path ≠ output ∨ output = "-".toList) :
    w.after (assembleFile env program input output).events path = w path := by
  rcases after_run w env program input output with ⟨h1, _⟩ | ⟨_, hex, n, _, _, _, hne, h1, _⟩
  · rw [h1]
  · rw [h1]
    rcases h with h | h
    · exact put_other _ _ h
    · exact (hne h).elim

/-- A successful run leaves its input as it was. -/
example : files.after (assembleFile (only "in.s".toList source (env [])) [] "in.s".toList "a.hex".toList).events
    "in.s".toList = some (utf8 source) := C75_others _ _ _ _ _ _ (.inl (by decide))

/-- C75: if a command line changes a file, then it asks for assembly of one input, and the file is the output it names,
or `a.hex`. -/
theorem C75_command_line [Target] (w : Files) (getopts : Getopts) (env : Env) (program : Str) (args : List Str) (path : Str)
    (h : w.after (main getopts env (program :: args)).events path ≠ w path) :
    ∃ m input, getopts.parse args = .ok m ∧ m.help = false ∧ m.version = false ∧ m.free = [input] ∧
      path = (match m.output with | some p => p | none => "a.hex".toList) ∧ path ≠ "-".toList := by
  unfold main at h
  simp only at h
  cases hp : getopts.parse args with
  | error reason => rw [hp] at h; exact (h rfl).elim
  | ok m =>
    rw [hp] at h
    simp only at h
    by_cases hh : m.help = true
    · rw [if_pos hh] at h; exact (h rfl).elim
    · rw [if_neg hh] at h
      by_cases hv : m.version = true
      · rw [if_pos hv] at h; exact (h rfl).elim
      · rw [if_neg hv] at h
        have key : ∀ input, m.free = [input] → path = m.output.getD "a.hex".toList ∧ path ≠ "-".toList := by
          intro input hf
          rw [hf] at h
          simp only at h
          have h1 := mt (C75_others w env program input (m.output.getD "a.hex".toList) path) h
          rw [not_or, Classical.not_not] at h1
          exact ⟨h1.1, by rw [h1.1]; exact h1.2⟩
        match hf : m.free, h with
        | [], h => exact (h rfl).elim
        | [input], h =>
          obtain ⟨h1, h2⟩ := key input hf
          refine ⟨m, input, rfl, by simpa using hh, by simpa using hv, hf, ?_, h2⟩
          rw [h1]
          cases m.output <;> rfl
        | _ :: _ :: _, h => exact (h rfl).elim

/-- A command line that changes a file. -/
example : files.after (main getopts0214 (only "in.s".toList source (env [])) ["c8s".toList, "in.s".toList]).events
    "a.hex".toList ≠ files "a.hex".toList := by
  decide +kernel

/-- C75: after success the output file holds the Intel HEX text of what the input file describes, whatever it held
before. -/
theorem C75_success [Target] (w : Files) (env : Env) (program input output : Str) (hr : Reads env w) (ho : output ≠ "-".toList)
    (h : (assembleFile env program input output).exit = .code 0) :
    ∃ text bytes hex, w input = some (utf8 text) ∧ Describes wordBinary input text bytes ∧ NoCollision bytes ∧
      HexOf hex bytes ∧ w.after (assembleFile env program input output).events output = some (utf8 hex) := by
  obtain ⟨text, hex, h1, h2, h3⟩ := after_success hr ho h
  obtain ⟨bytes, hd, hn, hx⟩ := objectText_hexOf h2
  exact ⟨text, bytes, hex, h1, hd, hn, hx, by rw [h3, put_same]⟩

/-- A run that succeeds. -/
example : Reads (only "in.s".toList source (env [])) files ∧
    (assembleFile (only "in.s".toList source (env [])) [] "in.s".toList "a.hex".toList).exit = .code 0 ∧
    files.after (assembleFile (only "in.s".toList source (env [])) [] "in.s".toList "a.hex".toList).events
      "a.hex".toList = some (utf8 hex) := by
  refine ⟨only_reads rfl, by rw [run_files], ?_⟩
  rw [run_files]
  rfl

/-- C75: however a run ends, either no file has changed, or the input was a valid program, and the output file holds the
beginning of its Intel HEX text. -/
theorem C75_prefix [Target] (w : Files) (env : Env) (program input output : Str) (hr : Reads env w) :
    w.after (assembleFile env program input output).events = w ∨
    ∃ text bytes hex n, w input = some (utf8 text) ∧ Describes wordBinary input text bytes ∧ NoCollision bytes ∧
      HexOf hex bytes ∧
      w.after (assembleFile env program input output).events output = some ((utf8 hex).take n) := by
  rcases after_run w env program input output with ⟨h1, _⟩ | ⟨text, hex, n, ho, ht, hobj, hne, h1, _⟩
  · exact .inl h1
  · obtain ⟨bytes, hd, hn, hx⟩ := objectText_hexOf hobj
    exact .inr ⟨text, bytes, hex, n, hr _ _ ho ht, hd, hn, hx, by rw [h1, put_same]⟩

/-- A run that fails when three bytes have been written. -/
example : (assembleFile (only "in.s".toList source (full [])) [] "in.s".toList "a.hex".toList).exit = .code 1 ∧
    files.after (assembleFile (only "in.s".toList source (full [])) [] "in.s".toList "a.hex".toList).events
      "a.hex".toList = some ((utf8 hex).take 3) := by
  decide +kernel

/-- C75: a second successful run changes nothing, unless the output has replaced the input. -/
theorem C75_again [Target] (w : Files) (env env' : Env) (program program' input output : Str) (hne : input ≠ output)
    (hr : Reads env w) (hr' : Reads env' (w.after (assembleFile env program input output).events))
    (h : (assembleFile env program input output).exit = .code 0)
    (h' : (assembleFile env' program' input output).exit = .code 0) :
    (w.after (assembleFile env program input output).events).after (assembleFile env' program' input output).events =
      w.after (assembleFile env program input output).events := by
  by_cases ho : output = "-".toList
  · funext p
    exact C75_others _ _ _ _ _ _ (.inr ho)
  · obtain ⟨t1, x1, h1, h2, h3⟩ := after_success hr ho h
    obtain ⟨t2, x2, h4, h5, h6⟩ := after_success hr' ho h'
    rw [h3, put_other _ _ hne] at h4
    have := utf8_inj (Option.some.inj (h1.symm.trans h4))
    subst this
    have := objectText_unique h2 h5
    subst this
    rw [h6, h3, put_put]

/-- The run can be repeated. -/
example : Reads (only "in.s".toList source (env []))
    (files.after (assembleFile (only "in.s".toList source (env [])) [] "in.s".toList "a.hex".toList).events) :=
  only_reads (by rw [C75_others _ _ _ _ _ _ (.inl (by decide))]; rfl)

/-- C75: two runs with different outputs, neither of which is the input of the other, may be made in either order. -/
theorem C75_order [Target] (w : Files) (env1 env2 env3 env4 : Env) (program1 program2 program3 program4 in1 in2 out1 out2 : Str)
    (ho : out1 ≠ out2) (h12 : in1 ≠ out2) (h21 : in2 ≠ out1) (ho1 : out1 ≠ "-".toList) (ho2 : out2 ≠ "-".toList)
    (r1 : Reads env1 w) (r2 : Reads env2 (w.after (assembleFile env1 program1 in1 out1).events))
    (r3 : Reads env3 w) (r4 : Reads env4 (w.after (assembleFile env3 program3 in2 out2).events))
    (s1 : (assembleFile env1 program1 in1 out1).exit = .code 0)
    (s2 : (assembleFile env2 program2 in2 out2).exit = .code 0)
    (s3 : (assembleFile env3 program3 in2 out2).exit = .code 0)
    (s4 : (assembleFile env4 program4 in1 out1).exit = .code 0) :
    (w.after (assembleFile env1 program1 in1 out1).events).after (assembleFile env2 program2 in2 out2).events =
      (w.after (assembleFile env3 program3 in2 out2).events).after (assembleFile env4 program4 in1 out1).events := by
  obtain ⟨t1, x1, a1, b1, c1⟩ := after_success r1 ho1 s1
  obtain ⟨t2, x2, a2, b2, c2⟩ := after_success r2 ho2 s2
  obtain ⟨t3, x3, a3, b3, c3⟩ := after_success r3 ho2 s3
  obtain ⟨t4, x4, a4, b4, c4⟩ := after_success r4 ho1 s4
  rw [c1, put_other _ _ h21] at a2
  rw [c3, put_other _ _ h12] at a4
  have := utf8_inj (Option.some.inj (a1.symm.trans a4))
  subst this
  have := utf8_inj (Option.some.inj (a2.symm.trans a3))
  subst this
  have := objectText_unique b1 b4
  subst this
  have := objectText_unique b2 b3
  subst this
  rw [c2, c1, c4, c3]
  funext p
  by_cases e1 : p = out1
  · subst e1
    rw [put_other _ _ ho, put_same, put_same]
  · rw [put_other _ _ e1]
    by_cases e2 : p = out2
    · subst e2
      rw [put_same, put_same]
    · rw [put_other _ _ e2, put_other _ _ e2, put_other _ _ e1]

/-- Two runs on the same input that may be made in either order. -/
example : let e := only "in.s".toList source (env [])
    Reads e files ∧ Reads e (files.after (assembleFile e [] "in.s".toList "a.hex".toList).events) ∧
    Reads e (files.after (assembleFile e [] "in.s".toList "b.hex".toList).events) ∧
    (assembleFile e [] "in.s".toList "a.hex".toList).exit = .code 0 ∧
    (assembleFile e [] "in.s".toList "b.hex".toList).exit = .code 0 :=
  ⟨only_reads rfl, only_reads (by rw [C75_others _ _ _ _ _ _ (.inl (by decide))]; rfl),
    only_reads (by rw [C75_others _ _ _ _ _ _ (.inl (by decide))]; rfl), by decide +kernel, by decide +kernel⟩

/-- C75: if the input is named as the output, it is replaced by the object file, which is then rejected as input. -/
theorem C75_in_place [Target] (w : Files) (env env' : Env) (program program' path output : Str) (hr : Reads env w)
    (ho : path ≠ "-".toList) (h : (assembleFile env program path path).exit = .code 0)
    (hr' : Reads env' (w.after (assembleFile env program path path).events)) :
    NoOutput (assembleFile env' program' path output).events ∧
      (assembleFile env' program' path output).exit = .code 1 := by
  obtain ⟨text, hex, h1, h2, h3⟩ := after_success hr ho h
  rcases files_cases env' program' path output with h4 | ⟨text', hex', o, r, hobj, _⟩
  · exact h4
  · have h5 := hr' _ _ o r
    rw [h3, put_same] at h5
    have := utf8_inj (Option.some.inj h5)
    subst this
    obtain ⟨rest, e⟩ := objectText_colon h2
    rw [e] at hobj
    exact (colon_rejected _ _ _ hobj).elim

/-- A run that replaces its input. -/
example : (assembleFile (only "in.s".toList source (env [])) [] "in.s".toList "in.s".toList).exit = .code 0 ∧
    Reads (only "in.s".toList hex (env []))
      (files.after (assembleFile (only "in.s".toList source (env [])) [] "in.s".toList "in.s".toList).events) := by
  refine ⟨by decide +kernel, only_reads ?_⟩
  decide +kernel

end C8S
