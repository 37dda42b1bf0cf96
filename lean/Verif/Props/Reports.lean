import Verif.Proofs.Reports
import Verif.Props.Tool
import Verif.Props.CommandLine

/- Properties C76 and C77: what is printed, and what happens if it cannot be printed. -/

namespace C8S

open Spec

/-! ### C76 -/

/-! ### Examples -/

namespace ReportsExample

open ToolExample

/-- Standard output that takes five characters and then fails. -/
def broken : Console := ⟨fun _ _ => .error 5⟩

def working : Console := ⟨fun _ _ => .ok ()⟩

end ReportsExample

open ToolExample ReportsExample

/-- C76: an input that cannot be opened is reported with its path and the reason. -/
theorem C76_open [Target] (env : Env) (program input output reason : Str) (h : env.openInput input = .error reason) :
    assembleFile env program input output = ⟨[.opening input,
      report program ("Unable to open input file '".toList ++ (input ++ "'".toList)), report program reason], .code 1⟩ := by
  simp [assembleFile, h, logProgramError_report]

example : assembleFile ⟨fun _ => .error "none".toList, fun _ => .ok source, fun _ => .ok (), fun _ _ => .ok ()⟩
    "c8s".toList "a.s".toList "o".toList =
    ⟨[.opening "a.s".toList, .printed "c8s: error: Unable to open input file 'a.s'\n".toList,
      .printed "c8s: error: none\n".toList], .code 1⟩ :=
  (C76_open _ "c8s".toList "a.s".toList "o".toList "none".toList rfl).trans (by decide +kernel)

/-- C76: an input that cannot be read, or is not UTF-8, is reported with its path and the reason. -/
theorem C76_read [Target] (env : Env) (program input output reason : Str) (ho : env.openInput input = .ok ())
    (h : env.readInput input = .error reason) :
    assembleFile env program input output = ⟨[.opening input, .reading input,
      report program ("Unable to read contents of input file '".toList ++ (input ++ "'".toList)),
      report program reason], .code 1⟩ := by
  simp [assembleFile, ho, h, logProgramError_report]

example : assembleFile ⟨fun _ => .ok (), fun _ => .error "bad".toList, fun _ => .ok (), fun _ _ => .ok ()⟩
    "c8s".toList "a.s".toList "o".toList =
    ⟨[.opening "a.s".toList, .reading "a.s".toList,
      .printed "c8s: error: Unable to read contents of input file 'a.s'\n".toList,
      .printed "c8s: error: bad\n".toList], .code 1⟩ :=
  (C76_read _ "c8s".toList "a.s".toList "o".toList "bad".toList rfl rfl).trans (by decide +kernel)

/-- C76: if ranges overlap, this is reported, with all pairs of overlapping ranges in order. -/
theorem C76_overlap [Target] (env : Env) (program input output text : Str) (tokens : List Token) (nodes : List Node)
    (ranges : List DataRange) (hs : scan input text = .ret tokens) (hp : parse tokens = .ret (.ok nodes))
    (ha : assemble nodes = .ret (.ok ranges)) (ho : findOverlappingRanges ranges ≠ []) :
    assembleText env program input output text =
      ⟨report program "Input file specifies overlapping data ranges.".toList ::
        report program "Data from one section has overflowed into the adjacent.".toList ::
        (findOverlappingRanges ranges).flatMap fun p =>
          [report program ("  range ".toList ++ shownRange p.1 ++ " overlaps with:".toList),
           report program ("  range ".toList ++ shownRange p.2)], .code 1⟩ := by
  have hd : ∀ r ∈ ranges, r.display = .ret (shownRange r) := fun r hr =>
    display_shown (ranges_bound ha r hr).1 (ranges_bound ha r hr).2
  have hr := overlapReports_eq (program := program) (shown := shownRange) (pairs := findOverlappingRanges ranges) (by
    rintro ⟨a, b⟩ hm
    obtain ⟨i, j, _, h1, h2, _⟩ := (C40_mem ranges a b).1 hm
    exact ⟨hd _ (List.mem_of_getElem? h1), hd _ (List.mem_of_getElem? h2)⟩)
  unfold assembleText
  simp only [hs, hp, ha]
  rw [if_pos (List.length_pos_iff.2 ho), hr]
  simp only [logProgramError_report, List.cons_append, List.nil_append]

example : assembleFile (env ".org 0\n.db 1\n.org 0\n.db 2\n".toList) "c8s".toList "i".toList "o".toList =
    ⟨[.opening "i".toList, .reading "i".toList,
      .printed "c8s: error: Input file specifies overlapping data ranges.\n".toList,
      .printed "c8s: error: Data from one section has overflowed into the adjacent.\n".toList,
      .printed "c8s: error:   range $000...$000 (1 bytes) overlaps with:\n".toList,
      .printed "c8s: error:   range $000...$000 (1 bytes)\n".toList], .code 1⟩ := by decide +kernel

/-- C76: an output that cannot be created is reported with its path and the reason. -/
theorem C76_create [Target] (env : Env) (program input output text reason : Str) (bytes : List (Nat × U8))
    (ho : env.openInput input = .ok ()) (hr : env.readInput input = .ok text)
    (hd : Describes wordBinary input text bytes) (hn : NoCollision bytes) (hne : output ≠ "-".toList)
    (hc : env.createOutput output = .error reason) :
    assembleFile env program input output = ⟨[.opening input, .reading input,
      report program ("Unable to create output file '".toList ++ (output ++ "'".toList)),
      report program reason], .code 1⟩ := by
  rcases text_cases env program input output text with ⟨_, _, h⟩ | ⟨_, hex, _, _, _, h⟩
  · exact (h ⟨bytes, hd, hn⟩).elim
  · unfold assembleFile
    simp only [ho, hr, h, writeResult, if_neg hne, hc, logProgramError_report, List.append_assoc]

example : assembleFile ⟨fun _ => .ok (), fun _ => .ok source, fun _ => .error "no".toList, fun _ _ => .ok ()⟩
    "c8s".toList "a.s".toList "o".toList =
    ⟨[.opening "a.s".toList, .reading "a.s".toList,
      .printed "c8s: error: Unable to create output file 'o'\n".toList, .printed "c8s: error: no\n".toList], .code 1⟩ :=
  (C76_create _ "c8s".toList "a.s".toList "o".toList source "no".toList described rfl rfl describes_source no_collision
    (by decide) rfl).trans (by decide +kernel)

/-- C76: an output that cannot be written is reported with its path and the reason. -/
theorem C76_write [Target] (env : Env) (program input output text reason : Str) (n : Nat) (bytes : List (Nat × U8))
    (ho : env.openInput input = .ok ()) (hr : env.readInput input = .ok text)
    (hd : Describes wordBinary input text bytes) (hn : NoCollision bytes)
    (hc : output ≠ "-".toList → env.createOutput output = .ok ())
    (hw : ∀ b, env.writeOutput (destination output) b = .error (reason, n)) :
    ∃ hex, HexOf hex bytes ∧ assembleFile env program input output =
      ⟨[.opening input, .reading input] ++ (if output = "-".toList then [] else [.created output]) ++
        [.wrote (destination output) ((utf8 hex).take n),
          report program ("Unable to write result to output file '".toList ++ (output ++ "'".toList)),
          report program reason], .code 1⟩ := by
  rcases text_cases env program input output text with ⟨_, _, h⟩ | ⟨bytes', hex, hd', _, hx, h⟩
  · exact (h ⟨bytes, hd, hn⟩).elim
  · cases describes_unique hd hd'
    refine ⟨hex, hx, ?_⟩
    unfold assembleFile
    simp only [ho, hr, h, writeResult, utf8Bytes_eq]
    unfold destination at hw ⊢
    by_cases e : output = "-".toList
    · simp only [if_pos e] at hw ⊢
      simp [hw, logProgramError_report]
    · simp only [if_neg e] at hw ⊢
      simp [hc e, hw, logProgramError_report]

example : assembleFile (full source) "c8s".toList "i".toList "o".toList =
    ⟨[.opening "i".toList, .reading "i".toList, .created "o".toList, .wrote (.file "o".toList) ((utf8 hex).take 3),
      .printed "c8s: error: Unable to write result to output file 'o'\n".toList, .printed "c8s: error: full\n".toList],
      .code 1⟩ := by decide +kernel

example : ∃ hex, HexOf hex described ∧ (assembleFile (full source) "c8s".toList "a.s".toList "-".toList).events =
    [.opening "a.s".toList, .reading "a.s".toList, .wrote .stdout ((utf8 hex).take 3),
      .printed "c8s: error: Unable to write result to output file '-'\n".toList, .printed "c8s: error: full\n".toList] :=
  have ⟨hex, h1, h2⟩ := C76_write (full source) "c8s".toList "a.s".toList "-".toList source "full".toList 3 described rfl rfl
    describes_source no_collision (fun h => absurd rfl h) (fun _ => rfl)
  ⟨hex, h1, by rw [h2]; rfl⟩

/-- C76: an assembly that ends with success prints nothing but the object file. -/
theorem C76_silent [Target] (env : Env) (program input output : Str) (h : (assembleFile env program input output).exit = .code 0) :
    printedBy (assembleFile env program input output).events = [] := by
  rcases files_cases env program input output with ⟨_, h1⟩ | ⟨text, hex, _, _, _, e⟩
  · rw [h1] at h
    cases h
  · rw [e] at h ⊢
    simp only at h ⊢
    rw [writeResult_success h]
    by_cases e' : output = "-".toList
    · rw [if_pos e']; rfl
    · rw [if_neg e']; rfl

example : printedBy (assembleFile (env source) "c8s".toList "a.s".toList "o".toList).events = [] :=
  C76_silent _ _ _ _ (by decide +kernel)

/-- C76: an assembly that fails prints lines. -/
theorem C76_failed [Target] (env : Env) (program input output : Str) (h : (assembleFile env program input output).exit ≠ .code 0) :
    IsLines (printedBy (assembleFile env program input output).events) := by
  have last : ∀ (a : List Event) (t : Str), IsLines (printedBy (a ++ [.printed (t ++ "\n".toList)])) := by
    intro a t
    refine ⟨printedBy a ++ t, ?_⟩
    simp [printedBy]
  have last2 : ∀ (a : List Event) (x y : Str), IsLines (printedBy (a ++ [logProgramError program x, logProgramError program y])) := by
    intro a x y
    have := last (a ++ [logProgramError program x]) (program ++ ": error: ".toList ++ y)
    simpa [logProgramError] using this
  unfold assembleFile at h ⊢
  cases ho : env.openInput input with
  | error reason => exact last2 [.opening input] _ _
  | ok u =>
    cases hr : env.readInput input with
    | error reason => exact last2 [.opening input, .reading input] _ _
    | ok text =>
      simp only [ho, hr] at h ⊢
      have hrun := textRun env program input output text
      generalize hout : assembleText env program input output text = o at h hrun
      have add : ∀ events, IsLines (printedBy events) →
          IsLines (printedBy (.opening input :: .reading input :: events)) := fun _ h => h
      refine add _ ?_
      cases hrun with
      | syntaxError => exact last [] _
      | semanticError => exact last [] _
      | overlap hs hp ha hov he =>
        have e := C76_overlap env program input output text _ _ _ hs hp ha hov
        rw [e] at hout
        have key : ∀ (l : List (DataRange × DataRange)) (a : List Event), l ≠ [] →
            IsLines (printedBy (a ++ l.flatMap fun p =>
              [report program ("  range ".toList ++ shownRange p.1 ++ " overlaps with:".toList),
               report program ("  range ".toList ++ shownRange p.2)])) := by
          intro l a hl
          obtain ⟨l', p, rfl⟩ : ∃ l' p, l = l' ++ [p] := ⟨_, _, (List.dropLast_concat_getLast hl).symm⟩
          rw [List.flatMap_append, ← List.append_assoc]
          simp only [List.flatMap_cons, List.flatMap_nil, List.append_nil, ← logProgramError_report]
          exact last2 _ _ _
        have := key _ [report program "Input file specifies overlapping data ranges.".toList,
          report program "Data from one section has overflowed into the adjacent.".toList] hov
        rw [← congrArg Outcome.events hout]
        exact this
      | @written tokens nodes ranges hex hs hp ha hov hh =>
        unfold writeResult at h ⊢
        simp only [utf8Bytes_eq] at h ⊢
        split
        · exact last2 [] _ _
        · rename_i evs hev
          rw [hev] at h
          simp only at h
          split
          · rename_i hw
            rw [hw] at h
            exact (h rfl).elim
          · rename_i reason written _
            have := last2 (evs ++ [.wrote (if output = "-".toList then .stdout else .file output)
              ((utf8 hex).take written)])
              ("Unable to write result to output file '".toList ++ output ++ "'".toList) reason
            rw [List.append_assoc] at this
            exact this

example : (assembleFile (env "jp".toList) [] "i".toList "o".toList).exit = .code 1 ∧
    IsLines (printedBy (assembleFile (env "jp".toList) [] "i".toList "o".toList).events) :=
  ⟨by decide +kernel, C76_failed _ _ _ _ (by decide +kernel)⟩

/-! ### C77 -/

/-- C77: what becomes of the files does not depend on whether standard output works. -/
theorem C77_files [Target] (w : Files) (console : Console) (getopts : Getopts) (env : Env) (arguments : List Str) :
    w.after (mainOn console getopts env arguments).events = w.after (main getopts env arguments).events := by
  unfold mainOn
  have hl := printsLast_main getopts env arguments
  generalize main getopts env arguments = o at hl
  rcases onConsole_cases console o.events [] o.exit with ⟨_, h⟩ | ⟨done, t, k, rest, he, _, _, h⟩
  · simp only [h, List.nil_append]
  · simp only [h, List.nil_append]
    rw [he] at hl ⊢
    have h1 : ∀ x, w.after [.printed x] = w := fun _ => rfl
    rw [after_append, after_append]
    have h2 : ∀ v : Files, v.after (.printed t :: rest) = v.after rest := fun _ => rfl
    rw [h2, after_noOutput _ (printsLast_after hl)]
    rfl

/-- A run that changes a file although nothing can be printed. -/
example : Files.after (fun _ => none) (mainOn broken getopts0214 (full source) ["c8s".toList, "i".toList]).events
    "a.hex".toList = some ((utf8 hex).take 3) := by
  rw [C77_files]
  decide +kernel

/-- C77: if all texts can be printed, the tool behaves as described elsewhere; otherwise it panics at the first text that
cannot be printed, and nothing else would have happened after it. -/
theorem C77_cases [Target] (console : Console) (getopts : Getopts) (env : Env) (arguments : List Str) :
    (Shows console [] (main getopts env arguments).events ∧
      mainOn console getopts env arguments = main getopts env arguments) ∨
    ∃ done text k rest, (main getopts env arguments).events = done ++ .printed text :: rest ∧ NoOutput rest ∧
      Shows console [] done ∧ console.print done text = .error k ∧
      mainOn console getopts env arguments = ⟨done ++ [.printed (text.take k)], .panicked⟩ := by
  unfold mainOn
  have hl := printsLast_main getopts env arguments
  generalize main getopts env arguments = o at hl
  rcases onConsole_cases console o.events [] o.exit with ⟨hs, h⟩ | ⟨done, t, k, rest, he, hs, hp, h⟩
  · exact .inl ⟨hs, by simp only [h, List.nil_append]⟩
  · rw [he] at hl
    exact .inr ⟨done, t, k, rest, he, printsLast_after hl, hs, by simpa using hp, by simpa using h⟩

/-- C77: the same for `assemble_file`. -/
theorem C77_file_cases [Target] (console : Console) (env : Env) (program input output : Str) :
    (Shows console [] (assembleFile env program input output).events ∧
      assembleFileOn console env program input output = assembleFile env program input output) ∨
    ∃ done text k rest, (assembleFile env program input output).events = done ++ .printed text :: rest ∧ NoOutput rest ∧
      Shows console [] done ∧ console.print done text = .error k ∧
      assembleFileOn console env program input output = ⟨done ++ [.printed (text.take k)], .panicked⟩ := by
  unfold assembleFileOn
  have hl := printsLast_file env program input output
  generalize assembleFile env program input output = o at hl
  rcases onConsole_cases console o.events [] o.exit with ⟨hs, h⟩ | ⟨done, t, k, rest, he, hs, hp, h⟩
  · exact .inl ⟨hs, by simp only [h, List.nil_append]⟩
  · rw [he] at hl
    exact .inr ⟨done, t, k, rest, he, printsLast_after hl, hs, by simpa using hp, by simpa using h⟩

/-- C77: it panics exactly if one of the texts cannot be printed, or it would panic anyway. -/
theorem C77_panics [Target] (console : Console) (getopts : Getopts) (env : Env) (arguments : List Str) :
    (mainOn console getopts env arguments).exit = .panicked ↔
      ¬ Shows console [] (main getopts env arguments).events ∨ (main getopts env arguments).exit = .panicked := by
  rcases C77_cases console getopts env arguments with ⟨h, e⟩ | ⟨done, t, k, rest, he, _, _, hp, e⟩
  · rw [e]
    exact ⟨.inr, fun h' => h'.resolve_left (fun hn => hn h)⟩
  · rw [e]
    refine ⟨fun _ => .inl (fun h => ?_), fun _ => rfl⟩
    have := h done t rest he
    rw [List.nil_append, hp] at this
    cases this

example : mainOn broken getopts0214 (env source) ["c8s".toList, "-v".toList] =
    ⟨[.printed "c8s v".toList], .panicked⟩ := by decide +kernel

/-- C77: a status of 0 means that all was printed. -/
theorem C77_status [Target] (console : Console) (getopts : Getopts) (env : Env) (arguments : List Str)
    (h : (mainOn console getopts env arguments).exit = .code 0) :
    mainOn console getopts env arguments = main getopts env arguments := by
  rcases C77_cases console getopts env arguments with ⟨_, e⟩ | ⟨_, _, _, _, _, _, _, _, e⟩
  · exact e
  · rw [e] at h
    cases h

example : (mainOn working getopts0214 (env source) ["c8s".toList, "-v".toList]).exit = .code 0 := by decide +kernel

/-- C77: a successful assembly does not depend on whether standard output can be printed to. -/
theorem C77_assembly [Target] (console : Console) (env : Env) (program input output : Str)
    (h : (assembleFile env program input output).exit = .code 0) :
    assembleFileOn console env program input output = assembleFile env program input output := by
  unfold assembleFileOn
  have hno : ∀ t, .printed t ∉ (assembleFile env program input output).events := by
    intro t
    rcases files_cases env program input output with ⟨_, h1⟩ | ⟨text, hex, _, _, _, e⟩
    · rw [h1] at h
      cases h
    · rw [e] at h ⊢
      simp only at h ⊢
      rw [writeResult_success h]
      by_cases e' : output = "-".toList
      · rw [if_pos e']; simp
      · rw [if_neg e']; simp
  generalize assembleFile env program input output = o at h hno
  rcases onConsole_cases console o.events [] o.exit with ⟨_, e⟩ | ⟨done, t, k, rest, he, _⟩
  · simp only [e, List.nil_append]
  · exact (hno t (by rw [he]; simp)).elim

example : (mainOn broken getopts0214 (env source) ["c8s".toList, "i".toList]).exit = .code 0 ∧
    (mainOn broken getopts0214 (full source) ["c8s".toList, "i".toList]).exit = .panicked := by decide +kernel

end C8S
