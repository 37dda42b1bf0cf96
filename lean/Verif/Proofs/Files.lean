import Verif.Spec.Files
import Verif.Proofs.Tool

/- Lemmas on the files. -/

namespace C8S

open Spec

theorem utf8Bytes_encode (s : Str) : (utf8 s).map UInt8.ofBitVec = s.flatMap String.utf8EncodeChar := by
  rw [← utf8Bytes_eq]
  simp only [utf8Bytes, List.map_flatMap, List.map_map]
  congr 1
  funext c
  have : (UInt8.ofBitVec ∘ UInt8.toBitVec) = id := rfl
  rw [this, List.map_id]

/-- The encoding of a text determines it. -/
theorem utf8_inj {s t : Str} (h : utf8 s = utf8 t) : s = t := by
  have h1 : s.utf8Encode = t.utf8Encode := by
    unfold List.utf8Encode
    rw [← utf8Bytes_encode, ← utf8Bytes_encode, h]
  have h2 := congrArg ByteArray.utf8Decode? h1
  rw [List.utf8Decode?_utf8Encode, List.utf8Decode?_utf8Encode] at h2
  exact congrArg Array.toList (Option.some.inj h2)

theorem put_same (w : Files) (p : Str) (c : List U8) : w.put p c p = some c := if_pos rfl

theorem put_other (w : Files) {p q : Str} (c : List U8) (h : q ≠ p) : w.put p c q = w q := if_neg h

theorem put_put (w : Files) (p : Str) (c d : List U8) : (w.put p c).put p d = w.put p d := by
  funext q
  by_cases e : q = p
  · subst e
    rw [put_same, put_same]
  · rw [put_other _ _ e, put_other _ _ e, put_other _ _ e]

theorem after_append (w : Files) (a b : List Event) : w.after (a ++ b) = (w.after a).after b := List.foldl_append

theorem after_noOutput (w : Files) {events : List Event} (h : NoOutput events) : w.after events = w := by
  induction events generalizing w with
  | nil => rfl
  | cons e events ih =>
    have h1 : w.step e = w := by
      have := h e List.mem_cons_self
      cases e with
      | created p => exact (this.1 p rfl).elim
      | wrote d b => exact (this.2 d b rfl).elim
      | _ => rfl
    have h2 : w.after (e :: events) = (w.step e).after events := rfl
    rw [h2, h1]
    exact ih w fun x hx => h x (List.mem_cons_of_mem _ hx)

/-- What writing the result makes of the files. -/
theorem after_write (w : Files) (env : Env) (program output hex : Str) :
    (w.after (writeResult env program output hex).events = w ∧
      ((writeResult env program output hex).exit = .code 0 → output = "-".toList)) ∨
    (output ≠ "-".toList ∧ ∃ n, w.after (writeResult env program output hex).events =
        w.put output ((utf8 hex).take n) ∧
      ((writeResult env program output hex).exit = .code 0 → (utf8 hex).take n = utf8 hex)) := by
  unfold writeResult
  simp only [utf8Bytes_eq]
  by_cases e : output = "-".toList
  · simp only [if_pos e]
    refine .inl ⟨?_, fun _ => e⟩
    split <;> rfl
  · simp only [if_neg e]
    cases hc : env.createOutput output with
    | error reason => exact .inl ⟨rfl, fun h => by cases h⟩
    | ok u =>
      refine .inr ⟨e, ?_⟩
      simp only
      split
      · refine ⟨(utf8 hex).length, ?_, fun _ => List.take_length⟩
        show ((w.put output []).put output ((w.put output [] output).getD [] ++ utf8 hex)) = _
        rw [put_put, put_same, List.take_length]
        rfl
      · rename_i reason written _
        refine ⟨written, ?_, fun h => by cases h⟩
        show ((w.put output []).put output ((w.put output [] output).getD [] ++ (utf8 hex).take written)) = _
        rw [put_put, put_same]
        rfl

/-- The object text of a source text. -/
def ObjectText [Target] (input text hex : Str) : Prop :=
  ∃ tokens nodes ranges, scan input text = .ret tokens ∧ parse tokens = .ret (.ok nodes) ∧
    assemble nodes = .ret (.ok ranges) ∧ findOverlappingRanges ranges = [] ∧
    ihexRepresentationOfDataRanges ranges = .ret hex

theorem objectText_unique [Target] {input text hex hex' : Str} (h : ObjectText input text hex) (h' : ObjectText input text hex') :
    hex = hex' := by
  obtain ⟨ts, ns, rs, h1, h2, h3, _, h4⟩ := h
  obtain ⟨ts', ns', rs', h1', h2', h3', _, h4'⟩ := h'
  cases h1.symm.trans h1'
  cases h2.symm.trans h2'
  cases h3.symm.trans h3'
  cases h4.symm.trans h4'
  rfl

theorem objectText_hexOf [Target] {input text hex : Str} (h : ObjectText input text hex) :
    ∃ bytes, Describes wordBinary input text bytes ∧ NoCollision bytes ∧ HexOf hex bytes := by
  obtain ⟨ts, ns, rs, h1, h2, h3, h4, h5⟩ := h
  obtain ⟨hex', h6, h7⟩ := C44_assembled _ _ h3 h4
  cases h5.symm.trans h6
  exact ⟨image rs, (describes_iff _ _ _).2 ⟨ts, ns, rs, h1, h2, h3, rfl⟩, (C41_overlap _ _ h3).1 h4, h7⟩

/-- A run either leaves the files alone and fails, or writes the object text. -/
theorem files_cases [Target] (env : Env) (program input output : Str) :
    (NoOutput (assembleFile env program input output).events ∧ (assembleFile env program input output).exit = .code 1) ∨
    ∃ text hex, env.openInput input = .ok () ∧ env.readInput input = .ok text ∧ ObjectText input text hex ∧
      assembleFile env program input output =
        ⟨[.opening input, .reading input] ++ (writeResult env program output hex).events,
          (writeResult env program output hex).exit⟩ := by
  unfold assembleFile
  cases ho : env.openInput input with
  | error reason =>
    refine .inl ⟨?_, rfl⟩
    intro e he
    simp only [List.mem_cons, List.not_mem_nil, or_false, logProgramError] at he
    rcases he with rfl | rfl | rfl <;> simp
  | ok u =>
    cases hr : env.readInput input with
    | error reason =>
      refine .inl ⟨?_, rfl⟩
      intro e he
      simp only [List.mem_cons, List.not_mem_nil, or_false, logProgramError] at he
      rcases he with rfl | rfl | rfl | rfl <;> simp
    | ok text =>
      simp only
      have hp : ∀ events, PrintsOnly events → NoOutput (.opening input :: .reading input :: events) := by
        intro events h e he
        simp only [List.mem_cons] at he
        rcases he with rfl | rfl | he
        · simp
        · simp
        · obtain ⟨t, rfl⟩ := h e he
          simp
      have h1 : ∀ message : Str, PrintsOnly [.printed message] := by
        intro m e he
        exact ⟨m, List.mem_singleton.1 he⟩
      have h := textRun env program input output text
      generalize assembleText env program input output text = o at h
      cases h with
      | syntaxError => exact .inl ⟨hp _ (h1 _), rfl⟩
      | semanticError => exact .inl ⟨hp _ (h1 _), rfl⟩
      | overlap _ _ _ _ he => exact .inl ⟨hp _ he, rfl⟩
      | @written tokens nodes ranges hex hs hpar ha hov hh =>
        exact .inr ⟨text, hex, trivial, rfl, ⟨tokens, nodes, ranges, hs, hpar, ha, hov, hh⟩, rfl⟩

/-- What a run makes of the files. -/
theorem after_run [Target] (w : Files) (env : Env) (program input output : Str) :
    (w.after (assembleFile env program input output).events = w ∧
      ((assembleFile env program input output).exit = .code 0 → output = "-".toList)) ∨
    ∃ text hex n, env.openInput input = .ok () ∧ env.readInput input = .ok text ∧ ObjectText input text hex ∧
      output ≠ "-".toList ∧
      w.after (assembleFile env program input output).events = w.put output ((utf8 hex).take n) ∧
      ((assembleFile env program input output).exit = .code 0 → (utf8 hex).take n = utf8 hex) := by
  rcases files_cases env program input output with ⟨h1, h2⟩ | ⟨text, hex, ho, hr, ht, e⟩
  · refine .inl ⟨after_noOutput w h1, fun h => ?_⟩
    rw [h2] at h
    cases h
  · rw [e]
    simp only
    have h0 : w.after [.opening input, .reading input] = w := rfl
    rw [after_append, h0]
    rcases after_write w env program output hex with h | ⟨hne, n, h1, h2⟩
    · exact .inl h
    · exact .inr ⟨text, hex, n, ho, hr, ht, hne, h1, h2⟩

/-- What a successful run into a file makes of the files. -/
theorem after_success [Target] {w : Files} {env : Env} {program input output : Str} (hr : Reads env w) (hne : output ≠ "-".toList)
    (h : (assembleFile env program input output).exit = .code 0) :
    ∃ text hex, w input = some (utf8 text) ∧ ObjectText input text hex ∧
      w.after (assembleFile env program input output).events = w.put output (utf8 hex) := by
  rcases after_run w env program input output with ⟨_, h1⟩ | ⟨text, hex, n, ho, ht, hobj, _, h1, h2⟩
  · exact (hne (h1 h)).elim
  · exact ⟨text, hex, hr _ _ ho ht, hobj, by rw [h1, h2 h]⟩

/-- A text that begins with a colon is not the text of a program. -/
theorem colon_rejected [Target] (input rest hex : Str) : ¬ ObjectText input (':' :: rest) hex := by
  rintro ⟨ts, ns, rs, h1, h2, _⟩
  have hl := (scan_iff_lex _ _ _).1 h1
  have hp := (parse_ok_iff _ _).1 h2
  have hb : ¬ Blank ':' := by unfold Blank whiteSpace; decide
  have nob : ∀ {blanks s r : Str}, (∀ c ∈ blanks, Blank c) → blanks ++ s = ':' :: r → blanks = [] := by
    intro blanks s r h e
    cases blanks with
    | nil => rfl
    | cons b bs =>
      cases e
      exact (hb (h _ List.mem_cons_self)).elim
  have lx : ∀ {s r : Str} {k}, Lexeme wordBinary s k → s ++ r = ':' :: rest → k = .labelMarker := by
    intro s r k h e
    cases h with
    | labelMarker => rfl
    | name h =>
      cases e
      exact absurd h (by unfold NameStart; decide)
    | @decimal _ hne h =>
      cases s with
      | nil => exact (hne rfl).elim
      | cons c s =>
        cases e
        exact absurd (h _ List.mem_cons_self) (by unfold Decimal; decide)
    | @decimalRange _ hne h =>
      cases s with
      | nil => exact (hne rfl).elim
      | cons c s =>
        cases e
        exact absurd (h _ List.mem_cons_self) (by unfold Decimal; decide)
    | hex h => cases e; simp at h
    | _ => cases e
  have hcolon : ∀ l rest', ¬ ∃ ns, Program (.labelMarker l :: rest') ns := by
    rintro l rest' ⟨ns, h⟩
    cases h with
    | blank h => rcases h with ⟨_, h⟩ | ⟨_, _, h⟩ <;> cases h
  generalize htext : ':' :: rest = text at hl
  cases hl with
  | done h =>
    subst htext
    exact hb (h _ List.mem_cons_self)
  | token h hlg _ _ =>
    have := nob h (by rw [← List.append_assoc]; exact htext.symm)
    subst this
    rw [lx hlg.1 (by simpa using htext.symm)] at hp
    exact hcolon _ _ ⟨_, hp⟩
  | outOfRange h hlg he =>
    have := nob h (by rw [← List.append_assoc]; exact htext.symm)
    subst this
    have := lx hlg.1 (by simpa using htext.symm)
    subst this
    obtain ⟨e, he⟩ := he
    have := congrFun he ⟨[], 0, 0, 0⟩
    cases this
  | malformed h _ hno _ =>
    have := nob h htext.symm
    subst this
    cases htext
    exact hno [':'] _ _ rfl .labelMarker

/-- An object text begins with a colon. -/
theorem objectText_colon [Target] {input text hex : Str} (h : ObjectText input text hex) : ∃ rest, hex = ':' :: rest := by
  obtain ⟨ts, ns, rs, _, _, ha, hov, hh⟩ := h
  have hb : ∀ r ∈ rs, Built r := by
    intro r hr
    refine (C38_built_iff_inMemory r).2 ?_
    have := (ranges_bound ha r hr).2
    simp only [InMemory, memorySize]
    omega
  obtain ⟨lines, hl, e⟩ := C43_lines rs hb hov
  cases hh.symm.trans e
  cases lines with
  | nil => exact ⟨_, rfl⟩
  | cons line lines =>
    obtain ⟨a, bytes, _, _, check, _, _, rfl⟩ := C43_sizes _ _ hl line List.mem_cons_self
    exact ⟨_, rfl⟩

end C8S
