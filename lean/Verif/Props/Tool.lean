import Verif.Proofs.Tool
import Verif.Model.Options

/- Properties of the whole tool: C45 to C50. -/

namespace C8S

open Spec

/-! ### Examples -/

namespace ToolExample

/-- A file system with one source file, where everything succeeds. -/
def env (text : Str) : Env :=
  ⟨fun _ => .ok (), fun _ => .ok text, fun _ => .ok (), fun _ _ => .ok ()⟩

/-- A full disk: writing fails after three bytes. -/
def full (text : Str) : Env :=
  ⟨fun _ => .ok (), fun _ => .ok text, fun _ => .ok (), fun _ _ => .error ("full".toList, 3)⟩

def source : Str := ".org 512\nstart: jp start ; loop\n.db 7, \"A\"\n".toList

def hex : Str := ":0402000012000741A0\n:00000001FF\n".toList

theorem can (text output : Str) : CanWrite (env text) output := ⟨fun _ => rfl, fun _ => rfl⟩

/-- The memory image of a text, computed. -/
def imageOf (file text : Str) : Option (List (Nat × U8)) :=
  match scan file text with
  | .panic => none
  | .ret tokens =>
    match parse tokens with
    | .ret (.ok nodes) =>
      match assemble nodes with
      | .ret (.ok ranges) => some (image ranges)
      | _ => none
    | _ => none

theorem describes_of {file text : Str} {bytes : List (Nat × U8)} (h : imageOf file text = some bytes) :
    Describes wordBinary file text bytes := by
  unfold imageOf at h
  split at h
  · cases h
  · split at h
    · split at h
      · cases h
        exact (describes_iff _ _ _).2 ⟨_, _, _, by assumption, by assumption, by assumption, rfl⟩
      · cases h
    · cases h

/-- The bytes of `source`. -/
def described : List (Nat × U8) := [(0x200, 0x12), (0x201, 0x00), (0x202, 0x07), (0x203, 0x41)]

theorem describes_source : Describes wordBinary "a.s".toList source described := describes_of (by decide +kernel)

theorem no_collision : NoCollision described := by unfold NoCollision described; decide

end ToolExample

open ToolExample

/-! ### C45 -/

/-- C45: unless the input can be read and is the text of a valid program without collisions, nothing is created or
written and the exit status is 1. -/
theorem C45_failure [Target] (env : Env) (program input output : Str)
    (h : ¬ ∃ text bytes, env.openInput input = .ok () ∧ env.readInput input = .ok text ∧
      Describes wordBinary input text bytes ∧ NoCollision bytes) :
    NoOutput (assembleFile env program input output).events ∧ (assembleFile env program input output).exit = .code 1 := by
  unfold assembleFile
  cases ho : env.openInput input with
  | error reason =>
    refine ⟨?_, rfl⟩
    intro e he
    simp only [List.mem_cons, List.not_mem_nil, or_false, logProgramError] at he
    rcases he with rfl | rfl | rfl <;> simp
  | ok u =>
    cases hr : env.readInput input with
    | error reason =>
      refine ⟨?_, rfl⟩
      intro e he
      simp only [List.mem_cons, List.not_mem_nil, or_false, logProgramError] at he
      rcases he with rfl | rfl | rfl | rfl <;> simp
    | ok text =>
      simp only
      rcases text_cases env program input output text with ⟨h1, h2, _⟩ | ⟨bytes, hex, hd, hn, _⟩
      · refine ⟨?_, h2⟩
        intro e he
        simp only [List.mem_cons] at he
        rcases he with rfl | rfl | he
        · simp
        · simp
        · obtain ⟨t, rfl⟩ := h1 e he
          simp
      · exact (h ⟨text, bytes, ho, hr, hd, hn⟩).elim

/-- An input that cannot be opened. -/
example : NoOutput (assembleFile ⟨fun _ => .error "none".toList, fun _ => .ok source, fun _ => .ok (), fun _ _ => .ok ()⟩
    "c8s".toList "a.s".toList "o".toList).events :=
  (C45_failure _ _ _ _ (by rintro ⟨_, _, h, _⟩; cases h)).1

/-- C45: whenever the tool creates or writes something, the command line asked for assembly of one input, this input
was read and is the text of a valid program without collisions, and what is created is the output file, what is
written is the beginning of the hex text. -/
theorem C45_output [Target] (getopts : Getopts) (env : Env) (program : Str) (args : List Str) (e : Event)
    (h : e ∈ (main getopts env (program :: args)).events) (he : (∃ p, e = .created p) ∨ ∃ d b, e = .wrote d b) :
    ∃ m input text bytes hex, getopts.parse args = .ok m ∧ m.help = false ∧ m.version = false ∧ m.free = [input] ∧
      env.openInput input = .ok () ∧ env.readInput input = .ok text ∧
      Describes wordBinary input text bytes ∧ NoCollision bytes ∧ HexOf hex bytes ∧
      ((e = .created (m.output.getD "a.hex".toList) ∧ m.output.getD "a.hex".toList ≠ "-".toList) ∨
        ∃ n, e = .wrote (destination (m.output.getD "a.hex".toList)) ((utf8 hex).take n)) := by
  have noprint : ∀ t, e ≠ .printed t := by
    rintro t rfl
    rcases he with ⟨_, he⟩ | ⟨_, _, he⟩ <;> cases he
  have noopen : ∀ t, e ≠ .opening t := by
    rintro t rfl
    rcases he with ⟨_, he⟩ | ⟨_, _, he⟩ <;> cases he
  have noread : ∀ t, e ≠ .reading t := by
    rintro t rfl
    rcases he with ⟨_, he⟩ | ⟨_, _, he⟩ <;> cases he
  unfold main at h
  simp only at h
  cases hp : getopts.parse args with
  | error reason =>
    rw [hp] at h
    exact (noprint _ (List.mem_singleton.1 h)).elim
  | ok m =>
    rw [hp] at h
    simp only at h
    by_cases h1 : m.help = true
    · rw [if_pos h1] at h
      exact (noprint _ (List.mem_singleton.1 h)).elim
    rw [if_neg h1] at h
    by_cases h2 : m.version = true
    · rw [if_pos h2] at h
      exact (noprint _ (List.mem_singleton.1 h)).elim
    rw [if_neg h2] at h
    split at h
    · rename_i input hfree
      unfold assembleFile at h
      cases ho : env.openInput input with
      | error reason =>
        rw [ho] at h
        simp only [List.mem_cons, List.not_mem_nil, or_false] at h
        rcases h with h | h | h
        · exact (noopen _ h).elim
        · exact (noprint _ h).elim
        · exact (noprint _ h).elim
      | ok u =>
        rw [ho] at h
        simp only at h
        cases hr : env.readInput input with
        | error reason =>
          rw [hr] at h
          simp only [List.mem_cons, List.not_mem_nil, or_false] at h
          rcases h with h | h | h | h
          · exact (noopen _ h).elim
          · exact (noread _ h).elim
          · exact (noprint _ h).elim
          · exact (noprint _ h).elim
        | ok text =>
          rw [hr] at h
          simp only [List.mem_cons] at h
          rcases h with h | h | h
          · exact (noopen _ h).elim
          · exact (noread _ h).elim
          rcases text_cases env program input (m.output.getD "a.hex".toList) text with
            ⟨hpr, _⟩ | ⟨bytes, hex, hd, hn, hh, hw⟩
          · obtain ⟨t, ht⟩ := hpr e h
            exact (noprint _ ht).elim
          · rw [hw] at h
            refine ⟨m, input, text, bytes, hex, rfl, by simpa using h1, by simpa using h2, hfree, ho, hr, hd, hn, hh, ?_⟩
            rcases writeResult_events _ _ _ _ e h with ⟨t, ht⟩ | h | h
            · exact (noprint _ ht).elim
            · exact .inl h
            · exact .inr h
    · exact (noprint _ (List.mem_singleton.1 h)).elim

example : Event.created "a.hex".toList ∈ (main getopts0214 (env source) ["c8s".toList, "a.s".toList]).events := by
  decide +kernel

/-- C45: on success the exit status is 0 and the whole hex text is written, once, to the output, which is first
created if it is a file. -/
theorem C45_success [Target] (env : Env) (program input output text : Str) (bytes : List (Nat × U8))
    (ho : env.openInput input = .ok ()) (hr : env.readInput input = .ok text) (hw : CanWrite env output)
    (hd : Describes wordBinary input text bytes) (hn : NoCollision bytes) :
    ∃ hex, HexOf hex bytes ∧ (assembleFile env program input output).exit = .code 0 ∧
      (assembleFile env program input output).events = [.opening input, .reading input] ++
        (if output = "-".toList then [] else [.created output]) ++ [.wrote (destination output) (utf8 hex)] := by
  unfold assembleFile
  simp only [ho, hr]
  rcases text_cases env program input output text with ⟨_, _, hno⟩ | ⟨bytes', hex, hd', _, hh, hx⟩
  · exact (hno ⟨bytes, hd, hn⟩).elim
  · cases describes_unique hd hd'
    refine ⟨hex, hh, ?_, ?_⟩
    · rw [hx, writeResult_ok hw]
    · rw [hx, writeResult_ok hw]
      rfl

example : ∃ hex, HexOf hex described ∧ (assembleFile (env source) "c8s".toList "a.s".toList "o".toList).exit = .code 0 :=
  have ⟨hex, h1, h2, _⟩ := C45_success (env source) "c8s".toList "a.s".toList "o".toList source described rfl rfl (can _ _)
    describes_source no_collision
  ⟨hex, h1, h2⟩

/-- C45: exit status 0 is only given when the whole hex text has been written. -/
theorem C45_status [Target] (env : Env) (program input output : Str) (h : (assembleFile env program input output).exit = .code 0) :
    ∃ text bytes hex, env.openInput input = .ok () ∧ env.readInput input = .ok text ∧
      Describes wordBinary input text bytes ∧ NoCollision bytes ∧ HexOf hex bytes ∧
      bytesTo (destination output) (assembleFile env program input output).events = utf8 hex := by
  unfold assembleFile at h ⊢
  cases ho : env.openInput input with
  | error reason => rw [ho] at h; cases h
  | ok u =>
    rw [ho] at h
    simp only at h ⊢
    cases hr : env.readInput input with
    | error reason => rw [hr] at h; cases h
    | ok text =>
      rw [hr] at h
      simp only at h ⊢
      rcases text_cases env program input output text with ⟨_, hx, _⟩ | ⟨bytes, hex, hd, hn, hh, hx⟩
      · rw [hx] at h; cases h
      · refine ⟨text, bytes, hex, trivial, rfl, hd, hn, hh, ?_⟩
        rw [hx] at h ⊢
        rw [writeResult_success h]
        exact bytesTo_written output _ [.opening input, .reading input] (by simp)

example : (assembleFile (env source) "c8s".toList "a.s".toList "o".toList).exit = .code 0 := by decide +kernel

example : assembleFile (env source) "c8s".toList "a.s".toList "o".toList =
    ⟨[.opening "a.s".toList, .reading "a.s".toList, .created "o".toList, .wrote (.file "o".toList) (utf8 hex)], .code 0⟩ := by
  decide +kernel

example : assembleFile (full source) "c8s".toList "a.s".toList "o".toList =
    ⟨[.opening "a.s".toList, .reading "a.s".toList, .created "o".toList, .wrote (.file "o".toList) (utf8 ":04".toList),
      .printed "c8s: error: Unable to write result to output file 'o'\n".toList, .printed "c8s: error: full\n".toList],
      .code 1⟩ := by decide +kernel

/-! ### C46 -/

/-- C45: for a given text, exit status 0 is given exactly if the file can be created, when it is one, and one and the same
hex text can be written to it. -/
theorem C45_status_iff [Target] (input text : Str) (bytes : List (Nat × U8)) (hd : Describes wordBinary input text bytes)
    (hn : NoCollision bytes) : ∃ hex, HexOf hex bytes ∧ ∀ (env : Env) (program output : Str),
      env.openInput input = .ok () → env.readInput input = .ok text →
      ((assembleFile env program input output).exit = .code 0 ↔
        (output ≠ "-".toList → env.createOutput output = .ok ()) ∧
          env.writeOutput (destination output) (utf8 hex) = .ok ()) := by
  obtain ⟨hex, h1, h2⟩ := text_written hd hn
  refine ⟨hex, h1, fun env program output ho hr => ?_⟩
  unfold assembleFile
  simp only [ho, hr]
  rw [h2, writeResult_status]

example : (assembleFile (full source) "c8s".toList "a.s".toList "o".toList).exit = .code 1 ∧
    Describes wordBinary "a.s".toList source described ∧ NoCollision described ∧
    (full source).openInput "a.s".toList = .ok () ∧ (full source).readInput "a.s".toList = .ok source :=
  ⟨by decide +kernel, describes_source, no_collision, rfl, rfl⟩

/-- C46: with a program name, the tool ends with status 0 or 1 and does not panic. -/
theorem C46_no_panic [Target] (getopts : Getopts) (env : Env) (program : Str) (args : List Str) :
    (main getopts env (program :: args)).exit = .code 0 ∨ (main getopts env (program :: args)).exit = .code 1 := by
  unfold main
  simp only
  split
  · exact .inr rfl
  · split
    · exact .inl rfl
    · split
      · exact .inl rfl
      · split
        · rename_i input _
          unfold assembleFile
          split
          · exact .inr rfl
          · split
            · exact .inr rfl
            · rename_i text _
              simp only
              generalize (Option.getD _ _) = output
              rcases text_cases env program input output text with ⟨_, hx, _⟩ | ⟨_, hex, _, _, _, hx⟩
              · exact .inr hx
              · rw [hx]
                exact writeResult_exit _ _ _ _
        · exact .inr rfl

/-- C46: an empty argument vector, not even with a program name, does make the tool panic. -/
theorem C46_no_program_name [Target] (getopts : Getopts) (env : Env) : (main getopts env []).exit = .panicked := rfl

/-! ### C47 -/

/-- C47: when files can be read and written, the exit status is 0 exactly if the text is that of a valid program
without collisions. -/
theorem C47_iff [Target] (env : Env) (program input output text : Str) (ho : env.openInput input = .ok ())
    (hr : env.readInput input = .ok text) (hw : CanWrite env output) :
    (assembleFile env program input output).exit = .code 0 ↔
      ∃ bytes, Describes wordBinary input text bytes ∧ NoCollision bytes := by
  constructor
  · intro h
    obtain ⟨text', bytes, _, _, hr', hd, hn, _⟩ := C45_status env program input output h
    rw [hr] at hr'
    cases hr'
    exact ⟨bytes, hd, hn⟩
  · rintro ⟨bytes, hd, hn⟩
    obtain ⟨_, _, h, _⟩ := C45_success env program input output text bytes ho hr hw hd hn
    exact h

/-- C47: the output then decodes to exactly the bytes the program describes. -/
theorem C47_content [Target] (env : Env) (program input output text : Str) (bytes : List (Nat × U8))
    (ho : env.openInput input = .ok ()) (hr : env.readInput input = .ok text) (hw : CanWrite env output)
    (hd : Describes wordBinary input text bytes) (hn : NoCollision bytes) :
    ∃ hex, bytesTo (destination output) (assembleFile env program input output).events = utf8 hex ∧
      HexOf hex bytes := by
  obtain ⟨hex, hh, _, he⟩ := C45_success env program input output text bytes ho hr hw hd hn
  refine ⟨hex, ?_, hh⟩
  rw [he, List.append_assoc]
  exact bytesTo_written output _ [.opening input, .reading input] (by simp)

example : ∃ hex, bytesTo (destination "o".toList) (assembleFile (env source) "c8s".toList "a.s".toList "o".toList).events =
    utf8 hex ∧ HexOf hex described :=
  C47_content (env source) "c8s".toList "a.s".toList "o".toList source described rfl rfl (can _ _) describes_source no_collision

/-- C47: a text describes at most one memory image. -/
theorem C47_unique [Target] (input text : Str) (bytes bytes' : List (Nat × U8)) (h : Describes wordBinary input text bytes)
    (h' : Describes wordBinary input text bytes') : bytes = bytes' := describes_unique h h'

example (bytes : List (Nat × U8)) (h : Describes wordBinary "a.s".toList source bytes) : bytes = described :=
  C47_unique _ _ _ _ h describes_source

/-- C47: with the intended reading of binary literals, for texts whose binary literals fit the machine word. -/
theorem C47_intended [Target] (env : Env) (program input output text : Str) (hs : SmallBinaries text)
    (ho : env.openInput input = .ok ()) (hr : env.readInput input = .ok text) (hw : CanWrite env output) :
    ((assembleFile env program input output).exit = .code 0 ↔
      ∃ bytes, Describes trueBinary input text bytes ∧ NoCollision bytes) ∧
    ∀ bytes, Describes trueBinary input text bytes → NoCollision bytes →
      ∃ hex, bytesTo (destination output) (assembleFile env program input output).events = utf8 hex ∧
        HexOf hex bytes := by
  refine ⟨?_, fun bytes hd hn => C47_content env program input output text bytes ho hr hw ((describes_agree hs bytes).2 hd) hn⟩
  rw [C47_iff env program input output text ho hr hw]
  exact exists_congr fun bytes => and_congr_left fun _ => describes_agree hs bytes

example : ∃ bytes, Describes wordBinary "a.s".toList source bytes ∧ NoCollision bytes :=
  (C47_iff (env source) "c8s".toList "a.s".toList "-".toList source rfl rfl (can _ _)).1 (by decide +kernel)

example : HexOf hex [(0x200, 0x12), (0x201, 0x00), (0x202, 0x07), (0x203, 0x41)] := by
  unfold HexOf
  decide +kernel

/-- A text with a collision. -/
example : ¬ ∃ bytes, Describes wordBinary "a.s".toList ".db 1,2\n.org 1\n.db 3".toList bytes ∧ NoCollision bytes := by
  intro h
  have := (C47_iff (env ".db 1,2\n.org 1\n.db 3".toList) "c8s".toList "a.s".toList "-".toList _ rfl rfl (can _ _)).2 h
  revert this
  decide +kernel

/-! ### C48 -/

/-- C48: the bytes sent to standard output are those written to a file of any name. -/
theorem C48_same_content [Target] (env : Env) (program input output output' : Str) (hw : CanWrite env output)
    (hw' : CanWrite env output') :
    bytesTo (destination output) (assembleFile env program input output).events =
      bytesTo (destination output') (assembleFile env program input output').events ∧
    (assembleFile env program input output).exit = (assembleFile env program input output').exit := by
  unfold assembleFile
  cases ho : env.openInput input with
  | error reason => exact ⟨rfl, rfl⟩
  | ok u =>
    cases hr : env.readInput input with
    | error reason => exact ⟨rfl, rfl⟩
    | ok text =>
      simp only
      unfold assembleText
      cases scan input text with
      | panic => exact ⟨rfl, rfl⟩
      | ret tokens =>
        simp only
        cases parse tokens with
        | panic => exact ⟨rfl, rfl⟩
        | ret out =>
          cases out with
          | error e =>
            simp only
            cases e.display <;> exact ⟨rfl, trivial⟩
          | ok nodes =>
            simp only
            cases assemble nodes with
            | panic => exact ⟨rfl, rfl⟩
            | ret out =>
              cases out with
              | error e => exact ⟨rfl, rfl⟩
              | ok ranges =>
                simp only
                split
                · cases hrep : overlapReports program (findOverlappingRanges ranges) with
                  | panic => exact ⟨rfl, rfl⟩
                  | ret reports =>
                    refine ⟨?_, rfl⟩
                    have key : ∀ (pairs : List (DataRange × DataRange)) (reports : List Event),
                        overlapReports program pairs = .ret reports → ∀ d, bytesTo d reports = [] := by
                      intro pairs
                      induction pairs with
                      | nil => intro reports h d; cases h; rfl
                      | cons p rest ih =>
                        intro reports h d
                        obtain ⟨a, b⟩ := p
                        simp only [overlapReports] at h
                        cases ha : a.display with
                        | panic => rw [ha] at h; cases h
                        | ret da =>
                          cases hb : b.display with
                          | panic => rw [ha, hb] at h; cases h
                          | ret db =>
                            cases hm : overlapReports program rest with
                            | panic => rw [ha, hb, hm] at h; cases h
                            | ret more =>
                              rw [ha, hb, hm] at h
                              cases h
                              simpa [bytesTo, logProgramError] using ih more hm d
                    have k := key _ _ hrep
                    simp only [bytesTo] at k
                    simp [bytesTo, logProgramError, k]
                · cases ihexRepresentationOfDataRanges ranges with
                  | panic => exact ⟨rfl, rfl⟩
                  | ret hex =>
                    simp only [writeResult_ok hw, writeResult_ok hw']
                    refine ⟨?_, trivial⟩
                    exact (bytesTo_written output _ [.opening input, .reading input] (by simp)).trans
                      (bytesTo_written output' _ [.opening input, .reading input] (by simp)).symm

/-- C48: only `-` is special: any other name is created and written as a file, and nothing else is. -/
theorem C48_destination [Target] (env : Env) (program input output : Str) :
    ∀ e ∈ (assembleFile env program input output).events,
      (∀ p, e = .created p → p = output ∧ output ≠ "-".toList) ∧
      ∀ d b, e = .wrote d b → (output = "-".toList → d = .stdout) ∧ (output ≠ "-".toList → d = .file output) := by
  have trivial_event : ∀ {e : Event}, (∀ p, e ≠ .created p) → (∀ d b, e ≠ .wrote d b) →
      (∀ p, e = .created p → p = output ∧ output ≠ "-".toList) ∧
      ∀ d b, e = .wrote d b → (output = "-".toList → d = .stdout) ∧ (output ≠ "-".toList → d = .file output) :=
    fun h1 h2 => ⟨fun p hp => (h1 p hp).elim, fun d b hb => (h2 d b hb).elim⟩
  intro e he
  unfold assembleFile at he
  split at he
  · simp only [List.mem_cons, List.not_mem_nil, or_false, logProgramError] at he
    rcases he with rfl | rfl | rfl <;> exact trivial_event (by simp) (by simp)
  · split at he
    · simp only [List.mem_cons, List.not_mem_nil, or_false, logProgramError] at he
      rcases he with rfl | rfl | rfl | rfl <;> exact trivial_event (by simp) (by simp)
    · rename_i text _
      simp only [List.mem_cons] at he
      rcases he with rfl | rfl | he
      · exact trivial_event (by simp) (by simp)
      · exact trivial_event (by simp) (by simp)
      · rcases text_cases env program input output text with ⟨hp, _⟩ | ⟨_, hex, _, _, _, hx⟩
        · obtain ⟨t, rfl⟩ := hp e he
          exact trivial_event (by simp) (by simp)
        · rw [hx] at he
          rcases writeResult_events _ _ _ _ e he with ⟨t, rfl⟩ | ⟨rfl, hne⟩ | ⟨n, rfl⟩
          · exact trivial_event (by simp) (by simp)
          · refine ⟨?_, fun d b hb => by cases hb⟩
            rintro p hp
            cases hp
            exact ⟨rfl, hne⟩
          · refine ⟨fun p hp => (by cases hp), ?_⟩
            intro d b hb
            cases hb
            constructor
            · intro e
              simp [destination, e]
            · intro e
              rw [destination, if_neg e]

example : (assembleFile (env source) "c8s".toList "a.s".toList "o".toList).events =
    [.opening "a.s".toList, .reading "a.s".toList, .created "o".toList, .wrote (.file "o".toList) (utf8 hex)] := by
  decide +kernel

/-- C48: with `-` and success, standard output receives the hex text and nothing else. -/
theorem C48_stdout_only [Target] (env : Env) (program input text : Str) (bytes : List (Nat × U8))
    (ho : env.openInput input = .ok ()) (hr : env.readInput input = .ok text) (hw : CanWrite env "-".toList)
    (hd : Describes wordBinary input text bytes) (hn : NoCollision bytes) :
    ∃ hex, HexOf hex bytes ∧ (assembleFile env program input "-".toList).events =
      [.opening input, .reading input, .wrote .stdout (utf8 hex)] := by
  obtain ⟨hex, hh, _, he⟩ := C45_success env program input "-".toList text bytes ho hr hw hd hn
  exact ⟨hex, hh, by rw [he]; rfl⟩

example : ∃ hex, HexOf hex described ∧ (assembleFile (env source) "c8s".toList "a.s".toList "-".toList).events =
    [.opening "a.s".toList, .reading "a.s".toList, .wrote .stdout (utf8 hex)] :=
  C48_stdout_only (env source) "c8s".toList "a.s".toList source described rfl rfl (can _ _) describes_source no_collision

/-! ### C49 -/

/-- C49: the message of a semantic error starts with the location of a statement of the program. -/
theorem C49_semantic (nodes : List Node) (hr : FourBitProgram nodes) (e : SemanticError)
    (h : assemble nodes = .ret (.error e)) :
    ∃ pre n rest, AtFault nodes pre n e ∧ e.display = (nodeLocation n).display ++ ": error: ".toList ++ rest := by
  have key : ∃ pre n, AtFault nodes pre n e ∧ (match e with
      | .directiveInvalid l _ | .directiveTooLarge l _ | .directiveWouldOverflow l _ | .instructionWouldOverflow l
      | .redefinitionOfLabel l _ | .assemblyFailed l _ | .constantWithoutLabel l => l) = nodeLocation n := by
    rcases (assemble_error_iff hr).1 h with ⟨pre, n, post, he, hc, hf⟩ |
      ⟨labels, pre, loc, m, fields, post, reason, hc, hl, he, hpre, hbad, rfl⟩
    · refine ⟨pre, n, ⟨post, he, .inl ⟨hc, hf⟩⟩, ?_⟩
      cases hf <;> rfl
    · exact ⟨pre, _, ⟨post, he, .inr ⟨labels, loc, m, fields, reason, hc, hl, rfl, hpre, hbad, rfl⟩⟩, rfl⟩
  obtain ⟨pre, n, hn, hl⟩ := key
  refine ⟨pre, n, ?_⟩
  suffices h : ∃ rest, e.display = (nodeLocation n).display ++ ": error: ".toList ++ rest by
    obtain ⟨rest, h⟩ := h
    exact ⟨rest, hn, h⟩
  rw [← hl]
  cases e <;> simp only [SemanticError.display, List.append_assoc]
  case directiveInvalid => exact ⟨_, rfl⟩
  case directiveTooLarge l d =>
    exact ⟨"Directive (".toList ++ (d.display ++ (") size ".toList ++ (showDec d.size ++ " exceeds 4096 bytes.".toList))), by
      rw [← List.append_assoc ": error: ".toList]; rfl⟩
  case directiveWouldOverflow l d =>
    exact ⟨"Directive (".toList ++ (d.display ++ ") would cause the 12-bit address counter to overflow.".toList), by
      rw [← List.append_assoc ": error: ".toList]; rfl⟩
  case redefinitionOfLabel l label =>
    exact ⟨"Attempted re-definition of label '".toList ++ (label ++ "'.".toList), by
      rw [← List.append_assoc ": error: ".toList]; rfl⟩
  case instructionWouldOverflow => exact ⟨_, rfl⟩
  case assemblyFailed => exact ⟨_, rfl⟩
  case constantWithoutLabel => exact ⟨_, rfl⟩

example : let loc : Loc := ⟨"a.s".toList, 3, 1, 2⟩
    FourBitProgram [.instruction loc "jp".toList [.identifier "a".toList]] ∧
    assemble [.instruction loc "jp".toList [.identifier "a".toList]] =
      .ret (.error (.assemblyFailed loc (.unableToResolveLabel "a".toList))) := by
  refine ⟨?_, by rfl⟩
  intro l m f h r hr
  cases List.mem_singleton.1 h
  simp at hr

/-- C49: for a source text that parses and does not assemble, the tool prints one message, which starts with the
location of the name of the statement at fault, and exits with status 1. -/
theorem C49_printed [Target] (env : Env) (program input output text : Str) (tokens : List Token) (nodes : List Node)
    (hs : scan input text = .ret tokens) (hp : parse tokens = .ret (.ok nodes)) (hv : ∀ labels, ¬ Valid nodes labels) :
    ∃ e pre n name rest, AtFault nodes pre n e ∧ .identifier name (nodeLocation n) ∈ tokens ∧
      assembleText env program input output text =
        ⟨[.printed ((nodeLocation n).display ++ ": error: ".toList ++ rest ++ "\n".toList)], .code 1⟩ := by
  have hprog := (parse_ok_iff _ _).1 hp
  obtain ⟨e, ha⟩ := C34_invalid nodes (program_registers hprog) hv
  obtain ⟨pre, n, rest, hf, hd⟩ := C49_semantic nodes (program_registers hprog) e ha
  have hn : n ∈ nodes := by
    obtain ⟨post, rfl, _⟩ := hf
    simp
  obtain ⟨name, hm⟩ := program_location hprog n hn
  refine ⟨e, pre, n, name, rest, hf, hm, ?_⟩
  unfold assembleText
  simp only [hs, hp, ha, hd]

/-- The text `x: x:` parses and is not valid. -/
example : let a : Loc := ⟨"a.s".toList, 1, 1, 1⟩
    let b : Loc := ⟨"a.s".toList, 1, 4, 1⟩
    parse [.identifier "x".toList a, .labelMarker a, .identifier "x".toList b, .labelMarker b] =
      .ret (.ok [.label a "x".toList, .label b "x".toList]) ∧
    ∀ labels, ¬ Valid [.label a "x".toList, .label b "x".toList] labels := by
  refine ⟨by rfl, fun labels h => ?_⟩
  have := h.unique
  simp [labelNames] at this

/-- C49: all overlapping ranges of an assembled program can be reported. -/
theorem C49_overlap_reports (nodes : List Node) (ranges : List DataRange) (program : Str)
    (h : assemble nodes = .ret (.ok ranges)) :
    ∃ events, overlapReports program (findOverlappingRanges ranges) = .ret events ∧ PrintsOnly events := by
  refine overlapReports_ret ?_
  rintro ⟨a, b⟩ hm
  obtain ⟨i, j, _, h1, h2, _⟩ := (C40_mem ranges a b).1 hm
  have hb := ranges_bound h
  have m1 := hb a (List.mem_of_getElem? h1)
  have m2 := hb b (List.mem_of_getElem? h2)
  exact ⟨display_range m1.1 m1.2, display_range m2.1 m2.2⟩

/-- Two ranges that overlap. -/
example : let loc : Loc := ⟨"a.s".toList, 1, 1, 2⟩
    assemble [.directive loc "db".toList [.numeric 1, .numeric 2], .directive loc "org".toList [.numeric 1],
      .directive loc "db".toList [.numeric 3]] = .ret (.ok [⟨0, [1, 2]⟩, ⟨1, [3]⟩]) ∧
    findOverlappingRanges [⟨0, [1, 2]⟩, ⟨1, [3]⟩] = [(⟨0, [1, 2]⟩, ⟨1, [3]⟩)] := by
  exact ⟨by rfl, by decide +kernel⟩

/-- C49: a range of an assembled program is displayed with its first and last address and its size. -/
theorem C49_range_display (nodes : List Node) (ranges : List DataRange) (h : assemble nodes = .ret (.ok ranges))
    (r : DataRange) (hr : r ∈ ranges) :
    ∃ first last, Occupies r first ∧ Occupies r last ∧ (∀ a, Occupies r a → first ≤ a ∧ a ≤ last) ∧
      r.display = .ret ("$".toList ++ upperTriple first ++ "...$".toList ++ upperTriple last ++ " (".toList ++
        Nat.toDigits 10 r.data.length ++ " bytes)".toList) := by
  obtain ⟨h1, h2⟩ := ranges_bound h r hr
  have h4 : 0 < r.data.length := List.length_pos_iff.2 h1
  have h5 : rangeEnd r = r.startAddress.toNat + r.data.length := rfl
  refine ⟨r.startAddress.toNat, rangeEnd r - 1, ⟨by omega, by omega⟩, ⟨by omega, by omega⟩, ?_, display_shown h1 h2⟩
  intro a ha
  have := ha.1
  have := ha.2
  omega

example : assembleFile (env "x: x:\n".toList) "c8s".toList "a.s".toList "o".toList =
    ⟨[.opening "a.s".toList, .reading "a.s".toList,
      .printed "a.s:1:4: error: Attempted re-definition of label 'x'.\n".toList], .code 1⟩ := by decide +kernel

example : assembleFile (env ".db 1,2\n.org 1\n.db 3".toList) "c8s".toList "a.s".toList "o".toList =
    ⟨[.opening "a.s".toList, .reading "a.s".toList,
      .printed "c8s: error: Input file specifies overlapping data ranges.\n".toList,
      .printed "c8s: error: Data from one section has overflowed into the adjacent.\n".toList,
      .printed "c8s: error:   range $000...$001 (2 bytes) overlaps with:\n".toList,
      .printed "c8s: error:   range $001...$001 (1 bytes)\n".toList], .code 1⟩ := by decide +kernel

/-! ### C50 -/

/-- C50: help and version only print, exit with status 0, and do not look at the file system. -/
theorem C50_help_version [Target] (getopts : Getopts) (env env' : Env) (program : Str) (args : List Str) (m : Matches)
    (hp : getopts.parse args = .ok m) (h : m.help = true ∨ m.version = true) :
    PrintsOnly (main getopts env (program :: args)).events ∧ (main getopts env (program :: args)).exit = .code 0 ∧
      main getopts env (program :: args) = main getopts env' (program :: args) := by
  unfold main
  simp only [hp]
  by_cases h1 : m.help = true
  · simp only [if_pos h1]
    exact ⟨fun e he => ⟨_, List.mem_singleton.1 he⟩, trivial, trivial⟩
  · simp only [if_neg h1, if_pos (h.resolve_left h1)]
    exact ⟨fun e he => ⟨_, List.mem_singleton.1 he⟩, trivial, trivial⟩

example : ∃ m, getopts0214.parse ["-h".toList] = .ok m ∧ m.help = true := ⟨_, rfl, rfl⟩

/-- C50: without exactly one input, or with an invalid command line, the tool only prints and exits with status 1. -/
theorem C50_usage [Target] (getopts : Getopts) (env env' : Env) (program : Str) (args : List Str)
    (h : (∃ reason, getopts.parse args = .error reason) ∨
      ∃ m, getopts.parse args = .ok m ∧ m.help = false ∧ m.version = false ∧ m.free.length ≠ 1) :
    PrintsOnly (main getopts env (program :: args)).events ∧ (main getopts env (program :: args)).exit = .code 1 ∧
      main getopts env (program :: args) = main getopts env' (program :: args) := by
  unfold main
  rcases h with ⟨reason, hp⟩ | ⟨m, hp, h1, h2, h3⟩
  · simp only [hp]
    exact ⟨fun e he => ⟨_, List.mem_singleton.1 he⟩, trivial, trivial⟩
  · simp only [hp, h1, h2, Bool.false_eq_true, if_false]
    match hf : m.free with
    | [x] => rw [hf] at h3; simp at h3
    | [] => exact ⟨fun e he => ⟨_, List.mem_singleton.1 he⟩, rfl, rfl⟩
    | _ :: _ :: _ => exact ⟨fun e he => ⟨_, List.mem_singleton.1 he⟩, rfl, rfl⟩

example : (∃ reason, getopts0214.parse ["-q".toList] = .error reason) ∧
    ∃ m, getopts0214.parse ["a".toList, "b".toList] = .ok m ∧ m.help = false ∧ m.version = false ∧ m.free.length ≠ 1 :=
  ⟨⟨_, rfl⟩, _, rfl, rfl, rfl, by decide⟩

/-- C50: otherwise the input named on the command line is assembled to the named output, by default `a.hex`. -/
theorem C50_assembles [Target] (getopts : Getopts) (env : Env) (program input : Str) (args : List Str) (m : Matches)
    (hp : getopts.parse args = .ok m) (h1 : m.help = false) (h2 : m.version = false) (h3 : m.free = [input]) :
    main getopts env (program :: args) =
      assembleFile env program input (match m.output with | some path => path | none => "a.hex".toList) := by
  unfold main
  simp only [hp, h1, h2, h3, Bool.false_eq_true, if_false]
  cases m.output <;> rfl

example : ∃ m, getopts0214.parse ["a.s".toList, "-o".toList, "b".toList] = .ok m ∧ m.help = false ∧ m.version = false ∧
    m.free = ["a.s".toList] ∧ m.output = some "b".toList := ⟨_, rfl, rfl, rfl, rfl, rfl⟩

end C8S
