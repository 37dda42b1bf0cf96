import Verif.Spec.Utf8
import Verif.Proofs.Bytes
import Verif.Props.Reports

/- Property C79: arguments and input in bytes. -/

namespace C8S

open Spec

/-- C79: bytes are decoded to the text of which they are the UTF-8 form, and not at all if there is none. -/
theorem C79_decode (bytes : List U8) (text : Str) : fromUtf8 bytes = some text ↔ InUtf8 text bytes := by
  rw [fromUtf8_iff]
  have h : (utf8Bytes text).map BitVec.toNat = text.flatMap fun c => utf8Of c.toNat := by
    unfold utf8Bytes
    rw [List.map_flatMap]
    congr 1
    funext c
    exact encode_toNat c
  unfold InUtf8
  rw [← h]
  exact ⟨fun e => e ▸ rfl, fun e => (bytes_inj e).symm⟩

/-- A character of each length. -/
example : fromUtf8 [0x41, 0xC3, 0xA9, 0xE2, 0x82, 0xAC, 0xF0, 0x9F, 0x98, 0x80] = some "Aé€😀".toList := by decide +kernel

/-- A form that is too long, a surrogate, a cut character, and a byte that never occurs. -/
example : fromUtf8 [0xC0, 0x80] = none ∧ fromUtf8 [0xED, 0xA0, 0x80] = none ∧ fromUtf8 [0xE2, 0x82] = none ∧
    fromUtf8 [0xFF] = none := by decide +kernel

namespace BytesExample

theorem invalid : ¬ ∃ s, InUtf8 s [0xFF] := by
  rintro ⟨s, h⟩
  have := (C79_decode _ _).2 h
  rw [show fromUtf8 [0xFF] = none by decide +kernel] at this
  cases this

/-- Files that hold these bytes. -/
def raw (bytes : List U8) : RawEnv :=
  ⟨fun _ => .ok (), fun _ => .ok bytes, fun _ => .ok (), fun _ _ => .ok ()⟩

end BytesExample

open BytesExample

theorem not_decoded {bytes : List U8} (h : ¬ ∃ text, InUtf8 text bytes) : fromUtf8 bytes = none := by
  cases e : fromUtf8 bytes with
  | none => rfl
  | some t => exact (h ⟨t, (C79_decode _ _).1 e⟩).elim

theorem collect_iff (args : List (List U8)) (ss : List Str) :
    collectArgs args = .ret ss ↔ AllInUtf8 ss args := by
  induction args generalizing ss with
  | nil =>
    constructor
    · rintro ⟨⟩
      exact .nil
    · rintro ⟨⟩
      rfl
  | cons a args ih =>
    unfold collectArgs
    constructor
    · intro h
      cases e : fromUtf8 a with
      | none => rw [e] at h; cases h
      | some s =>
        rw [e] at h
        simp only at h
        cases e' : collectArgs args with
        | panic => rw [e'] at h; cases h
        | ret more =>
          rw [e'] at h
          cases h
          exact .cons ((C79_decode _ _).1 e) ((ih _).1 e')
    · rintro (_ | ⟨h, hs⟩)
      rw [(C79_decode _ _).2 h, (ih _).2 hs]
      rfl

theorem collect_panic (args : List (List U8)) :
    collectArgs args = .panic ↔ ∃ a ∈ args, ¬ ∃ s, InUtf8 s a := by
  induction args with
  | nil => exact ⟨fun h => (by cases h), by simp⟩
  | cons a args ih =>
    unfold collectArgs
    by_cases ha : ∃ s, InUtf8 s a
    · obtain ⟨s, hs⟩ := ha
      rw [(C79_decode _ _).2 hs]
      simp only [List.mem_cons, exists_eq_or_imp]
      have : ¬ ¬ ∃ s, InUtf8 s a := fun h => h ⟨s, hs⟩
      constructor
      · intro h
        cases e : collectArgs args with
        | panic => exact .inr (ih.1 e)
        | ret more => rw [e] at h; cases h
      · rintro (h | h)
        · exact (this h).elim
        · rw [ih.2 h]
          rfl
    · rw [not_decoded ha]
      exact ⟨fun _ => ⟨a, List.mem_cons_self, ha⟩, fun _ => rfl⟩

/-- C79: arguments that are UTF-8 are used as the texts they stand for. -/
theorem C79_arguments [Target] (getopts : Getopts) (raw : RawEnv) (args : List (List U8)) (ss : List Str)
    (h : AllInUtf8 ss args) : mainRaw getopts raw args = main getopts raw.env ss := by
  unfold mainRaw
  rw [(collect_iff _ _).2 h]

example (getopts : Getopts) : mainRaw getopts (raw []) [[0x63], [0xC3, 0xA9]] =
    main getopts (raw []).env ["c".toList, "é".toList] :=
  C79_arguments _ _ _ _ (.cons ((C79_decode _ _).1 (by decide +kernel)) (.cons ((C79_decode _ _).1 (by decide +kernel)) .nil))

/-- C79: the tool panics exactly if there is no argument at all or one that is not UTF-8, and then it does nothing else. -/
theorem C79_panics [Target] (getopts : Getopts) (raw : RawEnv) (args : List (List U8)) :
    ((mainRaw getopts raw args).exit = .panicked ↔ args = [] ∨ ∃ a ∈ args, ¬ ∃ s, InUtf8 s a) ∧
      ((mainRaw getopts raw args).exit = .panicked → (mainRaw getopts raw args).events = []) := by
  unfold mainRaw
  cases e : collectArgs args with
  | panic =>
    exact ⟨⟨fun _ => .inr ((collect_panic _).1 e), fun _ => rfl⟩, fun _ => rfl⟩
  | ret ss =>
    have hn : ¬ ∃ a ∈ args, ¬ ∃ s, InUtf8 s a := by
      intro h
      rw [(collect_panic _).2 h] at e
      cases e
    cases args with
    | nil =>
      cases e
      exact ⟨⟨fun _ => .inl rfl, fun _ => rfl⟩, fun _ => rfl⟩
    | cons a args =>
      have hf := (collect_iff _ _).1 e
      cases hf with
      | @cons s _ rest _ _ _ =>
        have := C46_no_panic getopts raw.env s rest
        refine ⟨⟨fun h => ?_, ?_⟩, fun h => ?_⟩
        · simp only [h] at this
          rcases this with h | h <;> cases h
        · rintro (h | h)
          · cases h
          · exact (hn h).elim
        · simp only [h] at this
          rcases this with h | h <;> cases h

/-- An argument that is not UTF-8. -/
example (getopts : Getopts) : mainRaw getopts (raw []) [[0x61], [0xFF]] = ⟨[], .panicked⟩ := rfl

/-- C79: an input that is not UTF-8 is reported, and nothing is written. -/
theorem C79_input [Target] (raw : RawEnv) (program input output : Str) (bytes : List U8) (ho : raw.openInput input = .ok ())
    (hr : raw.readInput input = .ok bytes) (h : ¬ ∃ text, InUtf8 text bytes) :
    assembleFile raw.env program input output = ⟨[.opening input, .reading input,
      report program ("Unable to read contents of input file '".toList ++ (input ++ "'".toList)),
      report program "stream did not contain valid UTF-8".toList], .code 1⟩ := by
  refine C76_read raw.env program input output _ ho ?_
  show raw.readToString input = _
  unfold RawEnv.readToString
  rw [hr]
  simp only [not_decoded h]

/-- An input that is not UTF-8. -/
example : (assembleFile (raw [0xFF]).env "c8s".toList "a.s".toList "a.hex".toList).exit = .code 1 := by
  rw [C79_input _ _ _ _ [0xFF] rfl rfl invalid]

theorem raw_reads {raw : RawEnv} {input text : Str} :
    raw.env.readInput input = .ok text ↔ ∃ bytes, raw.readInput input = .ok bytes ∧ InUtf8 text bytes := by
  show raw.readToString input = _ ↔ _
  unfold RawEnv.readToString
  cases raw.readInput input with
  | error e =>
    constructor
    · intro h
      cases h
    · rintro ⟨_, h, _⟩
      cases h
  | ok bytes =>
    simp only [Except.ok.injEq, exists_eq_left']
    rw [← C79_decode]
    cases fromUtf8 bytes with
    | none => simp
    | some t => simp

/-- C79: when files can be read and written, the status is 0 exactly if the bytes of the input are the UTF-8 form of a
valid program without collisions. -/
theorem C79_iff [Target] (raw : RawEnv) (program input output : Str) (bytes : List U8) (ho : raw.openInput input = .ok ())
    (hr : raw.readInput input = .ok bytes) (hw : CanWrite raw.env output) :
    (assembleFile raw.env program input output).exit = .code 0 ↔
      ∃ text, InUtf8 text bytes ∧ ∃ image, Describes wordBinary input text image ∧ NoCollision image := by
  by_cases h : ∃ text, InUtf8 text bytes
  · obtain ⟨text, ht⟩ := h
    rw [C47_iff raw.env program input output text ho (raw_reads.2 ⟨_, hr, ht⟩) hw]
    constructor
    · exact fun h => ⟨text, ht, h⟩
    · rintro ⟨text', ht', h⟩
      rw [← C79_decode] at ht ht'
      cases ht.symm.trans ht'
      exact h
  · rw [C79_input raw program input output bytes ho hr h]
    refine ⟨fun h => (by cases h), ?_⟩
    rintro ⟨text, ht, _⟩
    exact (h ⟨text, ht⟩).elim

/-- An input of one directive with a string of one character of two bytes. -/
example : (assembleFile (raw (utf8 ".db \"é\"\n".toList)).env "c8s".toList "a.s".toList "-".toList).exit = .code 0 := by
  decide +kernel

/-- C79: for an input that is the UTF-8 form of such a program, the status is 0 exactly if the file can be created, when it
is one, and one and the same hex text can be written to it. -/
theorem C79_status [Target] (input text : Str) (bytes : List U8) (image : List (Nat × U8)) (ht : InUtf8 text bytes)
    (hd : Describes wordBinary input text image) (hn : NoCollision image) :
    ∃ hex, HexOf hex image ∧ ∀ (raw : RawEnv) (program output : Str),
      raw.openInput input = .ok () → raw.readInput input = .ok bytes →
      ((assembleFile raw.env program input output).exit = .code 0 ↔
        (output ≠ "-".toList → raw.createOutput output = .ok ()) ∧
          raw.writeOutput (destination output) (utf8 hex) = .ok ()) := by
  obtain ⟨hex, h1, h2⟩ := C45_status_iff input text image hd hn
  exact ⟨hex, h1, fun raw program output ho hr => h2 raw.env program output ho (raw_reads.2 ⟨_, hr, ht⟩)⟩

/-- A file that cannot be created. -/
example : (assembleFile (RawEnv.env { raw (utf8 ".db 1\n".toList) with createOutput := fun _ => .error "no".toList })
      "c8s".toList "a.s".toList "o".toList).exit = .code 1 ∧
    (assembleFile (raw (utf8 ".db 1\n".toList)).env "c8s".toList "a.s".toList "o".toList).exit = .code 0 :=
  ⟨by decide +kernel, by decide +kernel⟩

/-- C79: what is read as text is what the files hold in bytes. -/
theorem C79_reads (raw : RawEnv) (w : Files)
    (h : ∀ path bytes, raw.openInput path = .ok () → raw.readInput path = .ok bytes → w path = some bytes) :
    Reads raw.env w := by
  intro path text ho hr
  obtain ⟨bytes, hb, ht⟩ := raw_reads.1 hr
  rw [h path bytes ho hb, ← (fromUtf8_iff _ _).1 ((C79_decode _ _).2 ht), utf8Bytes_eq]

example : Reads (raw (utf8 "x".toList)).env (fun _ => some [0x78]) :=
  C79_reads _ _ (fun _ _ _ h => by cases h; rfl)

/-- No token begins with a byte order mark. -/
theorem bom_lexeme {bin : Str → Nat} {s r rest : Str} {k : Loc → Token} (e : s ++ r = byteOrderMark :: rest) :
    ¬ Lexeme bin s k := by
  intro h
  cases h with
  | name h =>
    cases e
    exact absurd h (by unfold NameStart; decide)
  | @decimal _ hne h =>
    cases s with
    | nil => exact (hne rfl).elim
    | cons c s =>
      cases e
      exact absurd (h _ List.mem_cons_self) (by unfold Decimal; decide)
  | @decimalRange _ hne h =>
    cases s with
    | nil => exact (hne rfl).elim
    | cons c s =>
      cases e
      exact absurd (h _ List.mem_cons_self) (by unfold Decimal; decide)
  | hex h => cases e; exact absurd h (by decide)
  | _ => cases e

/-- C79: an input that begins with a byte order mark is rejected for its first character, whatever follows. -/
theorem C79_byte_order_mark [Target] (env : Env) (program input output rest : Str)
    (hr : env.readInput input = .ok (byteOrderMark :: rest)) :
    scan input (byteOrderMark :: rest) = .ret [.error (.invalidCharacter byteOrderMark) ⟨input, 1, 1, 1⟩] ∧
      (assembleFile env program input output).exit = .code 1 ∧
      NoOutput (assembleFile env program input output).events := by
  have hb : ¬ Blank byteOrderMark := by unfold Blank whiteSpace; decide
  have hs : scan input (byteOrderMark :: rest) = .ret [.error (.invalidCharacter byteOrderMark) ⟨input, 1, 1, 1⟩] := by
    refine (scan_iff_lex _ _ _).2 ?_
    have := Lex.malformed (bin := wordBinary) (file := input) (before := []) (blanks := []) (c := byteOrderMark) (rest := rest)
      (e := .invalidCharacter byteOrderMark) (by simp) hb (fun s r k e => bom_lexeme e)
      (.other (by decide) (by decide) (by decide) (by decide) (by decide))
    exact this
  refine ⟨hs, ?_⟩
  have := C45_failure env program input output (by
    rintro ⟨text, bytes, _, ht, hd, _⟩
    cases hr.symm.trans ht
    obtain ⟨tokens, nodes, ranges, h1, h2, _⟩ := (describes_iff _ _ _).1 hd
    cases hs.symm.trans h1
    obtain ⟨e, he⟩ := C12_error _ _ _ (List.mem_singleton_self _)
    cases he.symm.trans h2)
  exact ⟨this.2, this.1⟩

/-- The same with a byte order mark. -/
example : (assembleFile (raw ([0xEF, 0xBB, 0xBF] ++ utf8 ".db \"é\"\n".toList)).env "c8s".toList "a.s".toList
    "-".toList).exit = .code 1 := by
  refine (C79_byte_order_mark _ _ _ _ ".db \"é\"\n".toList ?_).2.1
  exact raw_reads.2 ⟨_, rfl, (C79_decode _ _).1 (by decide +kernel)⟩

end C8S
