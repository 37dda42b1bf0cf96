import Verif.Proofs.System
import Verif.Props.Size
import Verif.Props.Bytes
import Verif.Model.Options

/- Property C107: files are read and written in pieces of any size. -/

namespace C8S

open Spec

/-! ### C107 -/

/-- C107: the bytes that are read are those of the file, however they arrive, and an error is that of the system. -/
theorem C107_read (answers : List ReadAnswer) :
    (∀ bytes, readToEnd [] answers = .ret (.ok bytes) ↔ Delivers answers bytes) ∧
      ∀ reason, readToEnd [] answers = .ret (.error reason) ↔ Breaks answers reason := by
  refine ⟨fun bytes => ?_, fun reason => readToEnd_error _ _ _⟩
  rw [readToEnd_ok]
  simp

/-- Three bytes in two pieces, with an interruption; what comes after the end is not read. -/
example : readToEnd [] [.bytes [1], .interrupted, .bytes [2, 3], .bytes [], .failed []] = .ret (.ok [1, 2, 3]) ∧
    Delivers [.bytes [1], .interrupted, .bytes [2, 3], .bytes [], .failed []] [1, 2, 3] :=
  ⟨rfl, .piece (b := [1]) (by decide) (.again (.piece (b := [2, 3]) (rest := []) (by decide) .ended))⟩

/-- An error behind a piece. -/
example : readToEnd [] [.bytes [1], .failed "x".toList] = .ret (.error "x".toList) ∧
    Breaks [.bytes [1], .failed "x".toList] "x".toList := ⟨rfl, .piece (by decide) .now⟩

/-- C107: writing to a file succeeds exactly if the system has room for all of the text; it has then taken all of it, and
otherwise a part from its beginning. -/
theorem C107_write (answers : List WriteAnswer) (bytes : List U8) :
    ((∃ w, writeAll [] [] answers bytes = .ret (w, .ok ())) ↔ RoomFor answers bytes.length) ∧
      (∀ w, writeAll [] [] answers bytes = .ret (w, .ok ()) → w.received = bytes) ∧
      ∀ w reason, writeAll [] [] answers bytes = .ret (w, .error reason) →
        ∃ n, n < bytes.length ∧ w.received = bytes.take n := by
  refine ⟨writeAll_ok _ _ _ _, fun w h => (writeAll_received h).2.1 rfl, fun w reason h => ?_⟩
  exact (writeAll_received h).2.2 reason rfl

example : writeAll [] [] [.upTo 1, .interrupted, .upTo 5] [7, 8, 9] = .ret (⟨[], [7, 8, 9], []⟩, .ok ()) ∧
    RoomFor [.upTo 1, .interrupted, .upTo 5] 3 :=
  ⟨rfl, .some (by decide) (.again (.some (by decide) .enough))⟩

/-- A system that takes nothing any more. -/
example : writeAll [] [] [.upTo 2, .upTo 0] [7, 8, 9] =
    .ret (⟨[], [7, 8], []⟩, .error "failed to write whole buffer".toList) := rfl

/-- C107: of what is written to standard output in any pieces, the system has received a part from the beginning, in
order. If all writes succeeded, what it has not received is held back and has no newline. -/
theorem C107_stdout (capacity : Nat) (answers : List WriteAnswer) (pieces : List (List U8)) (w : Writer)
    (r : Except Str Unit) (h : writeEach capacity ⟨answers, [], []⟩ pieces = .ret (w, r)) :
    (∃ rest, w.received ++ rest = pieces.flatten) ∧
      (r = .ok () → w.received ++ w.buffered = pieces.flatten ∧ 10 ∉ w.buffered) := by
  obtain ⟨⟨lost, hk, h0⟩, hn⟩ := writeEach_kept h (by simp)
  simp only [List.nil_append] at hk
  refine ⟨⟨_, hk⟩, fun hr => ⟨?_, hn hr⟩⟩
  rw [h0 hr] at hk
  simpa using hk

/-- C107: a text that ends in a newline has been received completely when all writes succeeded. -/
theorem C107_lines (capacity : Nat) (answers : List WriteAnswer) (pieces : List (List U8)) (w : Writer)
    (h : writeEach capacity ⟨answers, [], []⟩ pieces = .ret (w, .ok ())) (hl : pieces.flatten.getLast? = some 10) :
    w.received = pieces.flatten ∧ w.buffered = [] := by
  obtain ⟨he, hn⟩ := (C107_stdout capacity answers pieces w _ h).2 rfl
  have hb : w.buffered = [] := by
    cases hb : w.buffered.getLast? with
    | none => exact List.getLast?_eq_none_iff.1 hb
    | some x =>
      rw [← he, List.getLast?_append, hb] at hl
      simp only [Option.some_or, Option.some.injEq] at hl
      subst hl
      exact absurd (List.mem_of_getLast? hb) hn
  refine ⟨?_, hb⟩
  rw [← he, hb, List.append_nil]

/-- Two lines in three pieces, of which the system takes what it likes. -/
example : writeEach 4 ⟨[.upTo 2, .interrupted, .upTo 9, .upTo 9], [], []⟩ [[65], [66, 67, 68], [10, 69, 10]] =
    .ret (⟨[], [65, 66, 67, 68, 10, 69, 10], []⟩, .ok ()) := rfl

/-- An unfinished line is held back. -/
example : writeEach 4 ⟨[.upTo 9], [], []⟩ [[65], [10, 66]] = .ret (⟨[], [65, 10], [66]⟩, .ok ()) := rfl

/-- The object file ends in a newline and is not too long. -/
theorem hex_shape {nodes : List Node} {ranges : List DataRange} {hex : Str} (ha : assemble nodes = .ret (.ok ranges))
    (hov : findOverlappingRanges ranges = []) (hh : ihexRepresentationOfDataRanges ranges = .ret hex) :
    (utf8Bytes hex).length ≤ 57342 ∧ (utf8Bytes hex).getLast? = some 10 := by
  have hb : ∀ r ∈ ranges, Built r := by
    intro r hr
    refine (C38_built_iff_inMemory r).2 ?_
    have := (ranges_bound ha r hr).2
    simp only [InMemory, memorySize]
    omega
  constructor
  · have h1 := C74_bytes ranges hb hex hh
    have h2 := C74_bound nodes ranges hex ha hh
    rw [utf8Bytes_eq]
    omega
  · obtain ⟨lines, _, e⟩ := C43_lines ranges hb hov
    rw [hh] at e
    injection e with e
    rw [e, List.flatMap_append]
    unfold utf8Bytes
    rw [List.flatMap_append, List.getLast?_append]
    rw [show ((([":00000001FF".toList] : List Str).flatMap (· ++ ['\n'])).flatMap fun c =>
      (String.utf8EncodeChar c).map UInt8.toBitVec).getLast? = some 10 by decide +kernel]
    rfl

/-- A run depends on the system only through what it does with a text of this shape. -/
theorem text_env [Target] (env env' : Env) (program input output text : Str)
    (hc : ∀ path, env.createOutput path = env'.createOutput path)
    (hw : ∀ dest bytes, bytes.length ≤ 57342 → bytes.getLast? = some 10 →
      env.writeOutput dest bytes = env'.writeOutput dest bytes) :
    assembleText env program input output text = assembleText env' program input output text := by
  unfold assembleText
  cases hs : scan input text with
  | panic => rfl
  | ret tokens =>
    simp only
    cases hp : parse tokens with
    | panic => rfl
    | ret out =>
      cases out with
      | error e => rfl
      | ok nodes =>
        simp only
        cases ha : assemble nodes with
        | panic => rfl
        | ret out =>
          cases out with
          | error e => rfl
          | ok ranges =>
            simp only
            by_cases ho : (findOverlappingRanges ranges).length > 0
            · rw [if_pos ho, if_pos ho]
            · rw [if_neg ho, if_neg ho]
              cases hh : ihexRepresentationOfDataRanges ranges with
              | panic => rfl
              | ret hex =>
                simp only
                have hov : findOverlappingRanges ranges = [] := List.length_eq_zero_iff.1 (by omega)
                obtain ⟨h1, h2⟩ := hex_shape ha hov hh
                unfold writeResult
                simp only [hc output, hw _ _ h1 h2]

theorem file_env [Target] (env env' : Env) (program input output : Str)
    (ho : ∀ path, env.openInput path = env'.openInput path) (hr : ∀ path, env.readInput path = env'.readInput path)
    (hc : ∀ path, env.createOutput path = env'.createOutput path)
    (hw : ∀ dest bytes, bytes.length ≤ 57342 → bytes.getLast? = some 10 →
      env.writeOutput dest bytes = env'.writeOutput dest bytes) :
    assembleFile env program input output = assembleFile env' program input output := by
  unfold assembleFile
  rw [ho input, hr input]
  cases env'.openInput input with
  | error reason => rfl
  | ok u =>
    cases env'.readInput input with
    | error reason => rfl
    | ok text => simp only [text_env env env' program input output text hc hw]

/-- A text that ends in a newline goes to standard output as to a file. -/
theorem send_whole (sys : System) (dest : Dest) (bytes : List U8) (h : bytes.getLast? = some 10) :
    sys.send dest bytes = writeAll [] [] (sys.writes dest) bytes := by
  cases dest with
  | file path => rfl
  | stdout =>
    show lineWriteAll 1024 ⟨sys.writes .stdout, [], []⟩ bytes = _
    unfold lineWriteAll
    rw [(splitLines_spec bytes).2.2.2 h]
    have hne : bytes ≠ [] := by
      rintro rfl
      cases h
    simp only [hne, if_false, if_true]
    cases hw : writeAll [] [] (sys.writes .stdout) bytes with
    | panic => rfl
    | ret p =>
      obtain ⟨w, r⟩ := p
      obtain ⟨hb, _⟩ := writeAll_received hw
      cases r with
      | error reason => rfl
      | ok u =>
        obtain ⟨answers, received, buffered⟩ := w
        cases hb
        rfl

theorem raw_write (sys : System) (dest : Dest) (bytes : List U8) (h : bytes.getLast? = some 10)
    (hr : RoomFor (sys.writes dest) bytes.length) : sys.raw.writeOutput dest bytes = .ok () := by
  obtain ⟨w, hw⟩ := (C107_write (sys.writes dest) bytes).1.2 hr
  show (match sys.send dest bytes with
    | .ret (_, .ok ()) => (Except.ok () : Except (Str × Nat) Unit)
    | .ret (w, .error reason) => .error (reason, w.received.length)
    | .panic => .error ("no answer".toList, 0)) = .ok ()
  rw [send_whole sys dest bytes h, hw]

/-- C107: what the tool does is the same on two systems that have the same files and take any object file, whatever the
pieces are in which they do so, and however often they interrupt it. -/
theorem C107_same_run [Target] (getopts : Getopts) (sys sys' : System) (arguments : List (List U8))
    (h : SameFiles sys sys') : mainRaw getopts sys.raw arguments = mainRaw getopts sys'.raw arguments := by
  have hread : ∀ path, sys.raw.readInput path = sys'.raw.readInput path := by
    intro path
    show (match readToEnd [] (sys.reads path) with
      | .ret r => r
      | .panic => (Except.error "no answer".toList : Except Str (List U8))) =
      match readToEnd [] (sys'.reads path) with
      | .ret r => r
      | .panic => .error "no answer".toList
    have e : readToEnd [] (sys.reads path) = readToEnd [] (sys'.reads path) := by
      cases e : readToEnd [] (sys.reads path) with
      | ret r =>
        cases r with
        | ok bytes => exact (((C107_read _).1 bytes).2 ((h.delivered path bytes).1 (((C107_read _).1 bytes).1 e))).symm
        | error reason => exact (((C107_read _).2 reason).2 ((h.broken path reason).1 (((C107_read _).2 reason).1 e))).symm
      | panic =>
        cases e' : readToEnd [] (sys'.reads path) with
        | panic => rfl
        | ret r =>
          cases r with
          | ok bytes =>
            rw [((C107_read _).1 bytes).2 ((h.delivered path bytes).2 (((C107_read _).1 bytes).1 e'))] at e
            cases e
          | error reason =>
            rw [((C107_read _).2 reason).2 ((h.broken path reason).2 (((C107_read _).2 reason).1 e'))] at e
            cases e
    rw [e]
  have hfile : ∀ program input output,
      assembleFile sys.raw.env program input output = assembleFile sys'.raw.env program input output := by
    intro program input output
    refine file_env _ _ _ _ _ h.opened (fun path => ?_) h.created fun dest bytes h1 h2 => ?_
    · show sys.raw.readToString path = sys'.raw.readToString path
      unfold RawEnv.readToString
      rw [hread]
    · obtain ⟨r1, r2⟩ := h.taken dest bytes.length h1
      show sys.raw.writeOutput dest bytes = sys'.raw.writeOutput dest bytes
      rw [raw_write sys dest bytes h2 r1, raw_write sys' dest bytes h2 r2]
  unfold mainRaw
  cases collectArgs arguments with
  | panic => rfl
  | ret args =>
    unfold main
    cases args with
    | nil => rfl
    | cons program rest =>
      simp only
      cases getopts.parse rest with
      | error reason => rfl
      | ok m =>
        simp only [hfile]

theorem same_reads {answers answers' : List ReadAnswer} {bytes : List U8}
    (h : readToEnd [] answers = .ret (.ok bytes) ∧ readToEnd [] answers' = .ret (.ok bytes)) :
    (∀ bytes, Delivers answers bytes ↔ Delivers answers' bytes) ∧ ∀ reason, Breaks answers reason ↔ Breaks answers' reason := by
  refine ⟨fun bytes => ?_, fun reason => ?_⟩
  · rw [← (C107_read answers).1, ← (C107_read answers').1, h.1, h.2]
  · rw [← (C107_read answers).2, ← (C107_read answers').2, h.1, h.2]

theorem roomFor_ones : ∀ n k, k ≤ n → RoomFor (List.replicate n (.upTo 1)) k
  | 0, k, h => by
    rw [show k = 0 by omega]
    exact .enough
  | n + 1, k, h => .some (by decide) (roomFor_ones n (k - 1) (by omega))

/-- The same file read at once and in two pieces; all written at once, and byte by byte after an interruption. -/
example : SameFiles
    ⟨fun _ => .ok (), fun _ => [.bytes (utf8 "CLS\n".toList), .bytes []], fun _ => .ok (), fun _ => [.upTo 57342]⟩
    ⟨fun _ => .ok (), fun _ => [.bytes (utf8 "C".toList), .interrupted, .bytes (utf8 "LS\n".toList), .bytes []],
      fun _ => .ok (), fun _ => .interrupted :: List.replicate 57342 (.upTo 1)⟩ where
  opened _ := rfl
  created _ := rfl
  delivered _ bytes := (same_reads (bytes := utf8 "CLS\n".toList) ⟨rfl, rfl⟩).1 bytes
  broken _ reason := (same_reads (bytes := utf8 "CLS\n".toList) ⟨rfl, rfl⟩).2 reason
  taken _ k h := ⟨.some (by decide) (by rw [show k - 57342 = 0 by omega]; exact .enough), .again (roomFor_ones _ k h)⟩

/-- C107: the bytes that a run is said to write are those that the system has received of the object file, none is held
back, and the status is 0 if and only if these are all. -/
theorem C107_received [Target] (sys : System) (program input output : Str) (dest : Dest) (sent : List U8)
    (ha : ∀ bytes, sys.send dest bytes ≠ .panic)
    (h : .wrote dest sent ∈ (assembleFile sys.raw.env program input output).events) :
    ∃ text tokens nodes ranges hex w r, sys.raw.readToString input = .ok text ∧ scan input text = .ret tokens ∧
      parse tokens = .ret (.ok nodes) ∧ assemble nodes = .ret (.ok ranges) ∧
      ihexRepresentationOfDataRanges ranges = .ret hex ∧ sys.send dest (utf8 hex) = .ret (w, r) ∧
      w.received = sent ∧ w.buffered = [] ∧
      ((assembleFile sys.raw.env program input output).exit = .code 0 ↔ sent = utf8 hex) := by
  unfold assembleFile at h ⊢
  cases ho : sys.raw.env.openInput input with
  | error reason => simp [ho, logProgramError] at h
  | ok u =>
    cases hr : sys.raw.env.readInput input with
    | error reason => simp [ho, hr, logProgramError] at h
    | ok text =>
      simp only [ho, hr, List.mem_cons, reduceCtorEq, false_or] at h ⊢
      have hrun := textRun sys.raw.env program input output text
      generalize assembleText sys.raw.env program input output text = o at h hrun ⊢
      cases hrun with
      | syntaxError => simp at h
      | semanticError => simp at h
      | overlap _ _ _ _ hp =>
        obtain ⟨t, ht⟩ := hp _ h
        cases ht
      | @written tokens nodes ranges hex hs hpa hn hov hh =>
        obtain ⟨_, hl⟩ := hex_shape hn hov hh
        simp only [← utf8Bytes_eq]
        suffices ∃ w r, sys.send dest (utf8Bytes hex) = .ret (w, r) ∧ w.received = sent ∧ w.buffered = [] ∧
            ((writeResult sys.raw.env program output hex).exit = .code 0 ↔ sent = utf8Bytes hex) by
          obtain ⟨w, r, h1⟩ := this
          exact ⟨text, tokens, nodes, ranges, hex, w, r, hr, hs, hpa, hn, hh, h1⟩
        unfold writeResult at h ⊢
        generalize utf8Bytes hex = bytes at hl h ⊢
        have hwrite : ∀ d, sys.raw.env.writeOutput d bytes = match writeAll [] [] (sys.writes d) bytes with
            | .ret (_, .ok ()) => (Except.ok () : Except (Str × Nat) Unit)
            | .ret (w, .error reason) => .error (reason, w.received.length)
            | .panic => .error ("no answer".toList, 0) := by
          intro d
          rw [← send_whole sys d bytes hl]
          rfl
        have hne := ha bytes
        rw [send_whole sys dest bytes hl] at hne ⊢
        have hcr : ∀ evs, (if output = "-".toList then Except.ok []
            else match sys.raw.env.createOutput output with
              | .error reason => .error reason
              | .ok () => .ok [.created output] : Except Str (List Event)) = .ok evs →
            .wrote dest sent ∉ evs := by
          intro evs he hm
          by_cases hd : output = "-".toList
          · rw [if_pos hd] at he
            cases he
            cases hm
          · rw [if_neg hd] at he
            generalize sys.raw.env.createOutput output = c at he
            cases c with
            | error reason => cases he
            | ok u =>
              cases he
              simp at hm
        generalize (if output = "-".toList then Except.ok []
          else match sys.raw.env.createOutput output with
            | .error reason => .error reason
            | .ok () => .ok [.created output] : Except Str (List Event)) = created at h hcr ⊢
        cases created with
        | error reason => simp [logProgramError] at h
        | ok evs =>
          simp only [hwrite] at h ⊢
          generalize (if output = "-".toList then Dest.stdout else Dest.file output) = d at h ⊢
          have hev := hcr evs rfl
          cases hw : writeAll [] [] (sys.writes d) bytes with
          | panic =>
            simp only [hw, List.mem_append, hev, false_or, logProgramError] at h
            simp only [List.mem_cons, Event.wrote.injEq, reduceCtorEq, List.not_mem_nil, or_false] at h
            exact absurd (h.1 ▸ hw) hne
          | ret p =>
            obtain ⟨w, r⟩ := p
            obtain ⟨h1, h2, h3⟩ := writeAll_received hw
            cases r with
            | ok u =>
              simp only [hw, List.mem_append, hev, false_or, List.mem_singleton, Event.wrote.injEq] at h
              obtain ⟨rfl, rfl⟩ := h
              exact ⟨w, _, hw, by simpa using h2 rfl, h1, by simp⟩
            | error reason =>
              simp only [hw, List.mem_append, hev, false_or, logProgramError] at h
              simp only [List.mem_cons, Event.wrote.injEq, reduceCtorEq, List.not_mem_nil, or_false] at h
              obtain ⟨rfl, rfl⟩ := h
              obtain ⟨n, hn, e⟩ := h3 reason rfl
              simp only [List.nil_append] at e
              have hlen : w.received.length = n := by rw [e, List.length_take]; omega
              refine ⟨w, _, hw, by rw [hlen, e], h1, ?_⟩
              simp only [Exit.code.injEq, reduceCtorEq, false_iff]
              intro h0
              have := congrArg List.length h0
              rw [hlen, List.length_take] at this
              omega

/-- A disk that is full after four bytes. -/
example : (assembleFile (System.raw ⟨fun _ => .ok (), fun _ => [.bytes (utf8 "CLS\n".toList), .bytes []], fun _ => .ok (),
    fun _ => [.upTo 4, .failed "full".toList]⟩).env "c8s".toList "a".toList "o".toList) =
    ⟨[.opening "a".toList, .reading "a".toList, .created "o".toList, .wrote (.file "o".toList) (utf8 ":020".toList),
      .printed "c8s: error: Unable to write result to output file 'o'\n".toList,
      .printed "c8s: error: full\n".toList], .code 1⟩ := by decide +kernel

theorem newline_last (s : Str) : (s ++ "\n".toList).getLast? = some '\n' := by simp

theorem logged_line (program reason : Str) (t : Str) (h : .printed t = logProgramError program reason) :
    t.getLast? = some '\n' := by
  cases h
  exact newline_last _

theorem reports_line (program : Str) : ∀ pairs events, overlapReports program pairs = .ret events →
    ∀ t, .printed t ∈ events → t.getLast? = some '\n' := by
  intro pairs
  induction pairs with
  | nil =>
    intro events h t ht
    cases h
    cases ht
  | cons p rest ih =>
    intro events h t ht
    obtain ⟨a, b⟩ := p
    unfold overlapReports at h
    cases ha : a.display with
    | panic => rw [ha] at h; cases h
    | ret da =>
      cases hb : b.display with
      | panic => rw [ha, hb] at h; cases h
      | ret db =>
        cases hm : overlapReports program rest with
        | panic => rw [ha, hb, hm] at h; cases h
        | ret more =>
          rw [ha, hb, hm] at h
          cases h
          rcases List.mem_cons.1 ht with h1 | h1
          · exact logged_line _ _ _ h1
          · rcases List.mem_cons.1 h1 with h2 | h2
            · exact logged_line _ _ _ h2
            · exact ih more hm t h2

theorem result_line (env : Env) (program output hex : Str) (t : Str)
    (h : .printed t ∈ (writeResult env program output hex).events) : t.getLast? = some '\n' := by
  unfold writeResult at h
  have hcr : ∀ evs, (if output = "-".toList then Except.ok []
      else match env.createOutput output with
        | .error reason => .error reason
        | .ok () => .ok [.created output] : Except Str (List Event)) = .ok evs → .printed t ∉ evs := by
    intro evs he hm
    by_cases hd : output = "-".toList
    · rw [if_pos hd] at he
      cases he
      cases hm
    · rw [if_neg hd] at he
      generalize env.createOutput output = c at he
      cases c with
      | error reason => cases he
      | ok u =>
        cases he
        simp at hm
  generalize (if output = "-".toList then Except.ok []
    else match env.createOutput output with
      | .error reason => .error reason
      | .ok () => .ok [.created output] : Except Str (List Event)) = created at h hcr
  cases created with
  | error reason =>
    simp only [List.mem_cons, List.not_mem_nil, or_false] at h
    rcases h with h | h <;> exact logged_line _ _ _ h
  | ok evs =>
    simp only at h
    generalize env.writeOutput (if output = "-".toList then Dest.stdout else Dest.file output) (utf8Bytes hex) = w at h
    have := hcr evs rfl
    cases w with
    | ok u =>
      simp [this] at h
    | error p =>
      simp only [List.mem_append, this, false_or, List.mem_cons, reduceCtorEq, List.not_mem_nil, or_false] at h
      rcases h with h | h <;> exact logged_line _ _ _ h

theorem text_line [Target] (env : Env) (program input output text : Str) (t : Str)
    (h : .printed t ∈ (assembleText env program input output text).events) : t.getLast? = some '\n' := by
  unfold assembleText at h
  cases hs : scan input text with
  | panic => simp [hs] at h
  | ret tokens =>
    simp only [hs] at h
    cases hp : parse tokens with
    | panic => simp [hp] at h
    | ret out =>
      cases out with
      | error e =>
        cases hd : e.display with
        | panic => simp [hp, hd] at h
        | ret message =>
          simp only [hp, hd, List.mem_singleton, Event.printed.injEq] at h
          rw [h]
          simp
      | ok nodes =>
        simp only [hp] at h
        cases ha : assemble nodes with
        | panic => simp [ha] at h
        | ret out =>
          cases out with
          | error e =>
            simp only [ha, List.mem_singleton, Event.printed.injEq] at h
            rw [h]
            simp
          | ok ranges =>
            simp only [ha] at h
            by_cases ho : (findOverlappingRanges ranges).length > 0
            · rw [if_pos ho] at h
              cases hr : overlapReports program (findOverlappingRanges ranges) with
              | panic =>
                simp only [hr, List.mem_cons, List.not_mem_nil, or_false] at h
                rcases h with h | h <;> exact logged_line _ _ _ h
              | ret reports =>
                simp only [hr, List.mem_append, List.mem_cons, List.not_mem_nil, or_false] at h
                rcases h with (h | h) | h
                · exact logged_line _ _ _ h
                · exact logged_line _ _ _ h
                · exact reports_line _ _ _ hr t h
            · rw [if_neg ho] at h
              cases hh : ihexRepresentationOfDataRanges ranges with
              | panic => simp [hh] at h
              | ret hex =>
                simp only [hh] at h
                exact result_line env program output hex t h

/-- C107: every text that the tool prints ends in a newline. -/
theorem C107_messages [Target] (getopts : Getopts) (env : Env) (arguments : List Str) (t : Str)
    (hu : ∀ brief, (getopts.usage brief).getLast? = some '\n')
    (h : .printed t ∈ (main getopts env arguments).events) : t.getLast? = some '\n' := by
  unfold main at h
  cases arguments with
  | nil => cases h
  | cons program rest =>
    simp only at h
    have usage : .printed t ∈ [printUsage getopts program] → t.getLast? = some '\n' := by
      intro h
      cases List.mem_singleton.1 h
      exact hu _
    cases hp : getopts.parse rest with
    | error reason =>
      simp only [hp, List.mem_singleton, Event.printed.injEq] at h
      rw [h]
      exact newline_last _
    | ok m =>
      simp only [hp] at h
      by_cases h1 : m.help = true
      · rw [if_pos h1] at h
        exact usage h
      · rw [if_neg h1] at h
        by_cases h2 : m.version = true
        · rw [if_pos h2] at h
          cases List.mem_singleton.1 h
          exact newline_last _
        · rw [if_neg h2] at h
          obtain ⟨help, version, output, free⟩ := m
          simp only at h
          match free, h with
          | [], h => exact usage h
          | [input], h =>
            simp only at h
            unfold assembleFile at h
            cases ho : env.openInput input with
            | error reason =>
              simp only [ho, List.mem_cons, reduceCtorEq, false_or, List.not_mem_nil, or_false] at h
              rcases h with h | h <;> exact logged_line _ _ _ h
            | ok u =>
              cases hr : env.readInput input with
              | error reason =>
                simp only [ho, hr, List.mem_cons, reduceCtorEq, false_or, List.not_mem_nil, or_false] at h
                rcases h with h | h <;> exact logged_line _ _ _ h
              | ok text =>
                simp only [ho, hr, List.mem_cons, reduceCtorEq, false_or] at h
                exact text_line env program input _ text t h
          | _ :: _ :: _, h => exact usage h

/-- The help text of the command-line parser ends in a newline. -/
example (brief : Str) : (Options.usage brief).getLast? = some '\n' := newline_last _

/-- C107: texts that end in a newline, printed one after the other and each in any pieces, have been received when all
writes succeeded. -/
theorem C107_printed (capacity : Nat) (answers : List WriteAnswer) (texts : List Str) (pieces : List (List U8)) (w : Writer)
    (hp : pieces.flatten = texts.flatMap utf8) (ht : ∀ t ∈ texts, t.getLast? = some '\n')
    (h : writeEach capacity ⟨answers, [], []⟩ pieces = .ret (w, .ok ())) :
    w.received = texts.flatMap utf8 ∧ w.buffered = [] := by
  rcases List.eq_nil_or_concat texts with rfl | ⟨before, t, rfl⟩
  · obtain ⟨he, _⟩ := (C107_stdout capacity answers pieces w _ h).2 rfl
    rw [hp] at he
    simpa using he
  · rw [← hp]
    refine C107_lines capacity answers pieces w h ?_
    have hl := ht t (by simp)
    obtain ⟨line, rfl⟩ : ∃ line, t = line ++ ['\n'] := by
      rcases List.eq_nil_or_concat t with rfl | ⟨l, c, rfl⟩
      · cases hl
      · refine ⟨l, ?_⟩
        simp only [List.concat_eq_append, List.getLast?_append, List.getLast?_singleton, Option.some_or,
          Option.some.injEq] at hl
        rw [List.concat_eq_append, hl]
    rw [hp, List.concat_eq_append, List.flatMap_append, List.flatMap_singleton, List.getLast?_append,
      ← utf8Bytes_eq, utf8Bytes, List.flatMap_append, List.getLast?_append]
    rfl

example : ∃ w, writeEach 4 ⟨[.upTo 3, .upTo 9], [], []⟩ [utf8 "ab".toList, utf8 "\nc\n".toList] = .ret (w, .ok ()) ∧
    w.received = (["ab\n".toList, "c\n".toList] : List Str).flatMap utf8 := ⟨_, rfl, rfl⟩

end C8S
