import Verif.Proofs.Pieces

/- Tokenising line by line. -/

namespace C8S

open Spec

variable {bin : Str → Nat}

theorem scan_iff_lex [Target] (file text : Str) (ts : List Token) :
    scan file text = .ret ts ↔ Lex wordBinary file [] text ts := by
  obtain ⟨ts', h1, h2⟩ := scan_lex file text
  constructor
  · intro h
    rw [h1] at h
    cases h
    exact h2
  · intro h
    rw [h1, lex_unique h2 h]

/-! ### Moving down -/

theorem sinceNewline_append (a b : Str) :
    sinceNewline (a ++ b) = if '\n' ∈ b then sinceNewline b else sinceNewline a + b.length := by
  induction b generalizing a with
  | nil => simp
  | cons c b ih =>
    rw [show a ++ c :: b = (a ++ [c]) ++ b by simp, ih, sinceNewline_snoc]
    rw [show c :: b = [c] ++ b from rfl, ih [c]]
    by_cases hb : '\n' ∈ b
    · simp [hb]
    · by_cases hc : c = '\n'
      · subst hc
        simp [hb, sinceNewline]
      · have hc' : ¬ '\n' = c := fun h => hc h.symm
        simp [hb, hc, hc']
        omega

/-- Two texts that end alike, the second after `n` more newlines. -/
def Lower (n : Nat) (a b : Str) : Prop := sinceNewline b = sinceNewline a ∧ newlines b = newlines a + n

theorem Lower.append {n : Nat} {a b : Str} (h : Lower n a b) (t : Str) : Lower n (a ++ t) (b ++ t) := by
  refine ⟨?_, ?_⟩
  · rw [sinceNewline_append, sinceNewline_append, h.1]
  · rw [newlines_append, newlines_append, h.2]
    omega

theorem lexeme_mapLoc {s : Str} {k : Loc → Token} (h : Lexeme bin s k) (f : Loc → Loc) (l : Loc) :
    mapLoc f (k l) = k (f l) := by
  cases h <;> rfl

theorem locate_lower {n : Nat} {a b : Str} (h : Lower n a b) (file s : Str) :
    locate file b s = { locate file a s with line := (locate file a s).line + n } := by
  simp only [locate, h.1, h.2, Loc.mk.injEq, true_and, and_true]
  omega

theorem lex_lower {file a text : Str} {ts : List Token} (h : Lex bin file a text ts) {n : Nat} {b : Str}
    (hl : Lower n a b) : Lex bin file b text (ts.map (down n)) := by
  induction h generalizing b with
  | done h => exact .done h
  | @token before blanks s rest k ts hb hL hE _ ih =>
    have h1 := hl.append blanks
    rw [List.map_cons, down, lexeme_mapLoc hL.1, ← locate_lower h1]
    exact .token hb hL hE (ih (h1.append s))
  | @outOfRange before blanks s rest k hb hL hE =>
    have h1 := hl.append blanks
    rw [List.map_cons, down, lexeme_mapLoc hL.1, ← locate_lower h1]
    exact .outOfRange hb hL hE
  | @malformed before blanks rest c e hb hc hn hM =>
    have h1 := hl.append blanks
    have h2 := Spec.Lex.malformed (file := file) (before := b) hb hc hn hM
    rw [locate_lower h1] at h2
    exact h2

/-- Every text has tokens, wherever it stands. -/
theorem lex_exists [Target] (file before rest : Str) : ∃ ts, Lex wordBinary file before rest ts := by
  have h : At ⟨file, before ++ rest, byteLen before, 1 + newlines before, 1 + sinceNewline before⟩ file before rest :=
    ⟨rfl, rfl, rfl, rfl, rfl⟩
  obtain ⟨ts, _, h2⟩ := drain_lex (rest.length + 1) h (by omega)
  exact ⟨ts, h2⟩

/-! ### Text after whole lines -/

theorem lex_after [Target] {file pre rest : Str} {ts ts' : List Token} (hp : WholeLines pre) (h : scan file pre = .ret ts)
    (hc : NoLexError ts) (h' : Lex wordBinary file pre rest ts') : scan file (pre ++ rest) = .ret (ts ++ ts') := by
  rw [scan_iff_lex] at h ⊢
  rcases hp with rfl | ⟨t, rfl⟩
  · have : ts = [] := lex_unique h (.done (by simp))
    subst this
    simpa using h'
  · have := lex_append (rest := rest) (ts' := ts') h hc (by simpa using h')
    simpa using this

theorem sinceNewline_whole {pre : Str} (h : WholeLines pre) : sinceNewline pre = 0 := by
  rcases h with rfl | ⟨t, rfl⟩
  · rfl
  · rw [sinceNewline_snoc]
    simp

theorem lower_whole {pre : Str} (h : WholeLines pre) : Lower (newlines pre) [] pre :=
  ⟨by rw [sinceNewline_whole h]; rfl, by simp [newlines]⟩

theorem scan_lines [Target] {file pre rest : Str} {ts ts' : List Token} (hp : WholeLines pre) (h : scan file pre = .ret ts)
    (hc : NoLexError ts) (h' : scan file rest = .ret ts') :
    scan file (pre ++ rest) = .ret (ts ++ ts'.map (down (newlines pre))) :=
  lex_after hp h hc (lex_lower ((scan_iff_lex _ _ _).1 h') (lower_whole hp))

/-! ### Single tokens after whole lines -/

theorem blankless {rest : Str} {k : Loc → Token} {file before s : Str} {ts : List Token} (hL : Longest bin s rest k)
    (hE : ¬ IsError k) (h : Lex bin file (before ++ s) rest ts) :
    Lex bin file before (s ++ rest) (k (locate file before s) :: ts) := by
  have := Spec.Lex.token (file := file) (before := before) (blanks := []) (by simp) hL hE (by simpa using h)
  simpa using this

theorem blankless_error {rest : Str} {k : Loc → Token} {file before s : Str} (hL : Longest bin s rest k)
    (hE : IsError k) : Lex bin file before (s ++ rest) [k (locate file before s)] := by
  have := Spec.Lex.outOfRange (file := file) (before := before) (blanks := []) (by simp) hL hE
  simpa using this

theorem longest_decimal {s rest : Str} {k : Loc → Token} (hL : Lexeme bin s k) (hne : s ≠ []) (hs : ∀ d ∈ s, Decimal d)
    (hr : ∀ d r, rest = d :: r → ¬ Decimal d) : Longest bin s rest k := by
  refine longest_of_stop hL ?_
  intro d r e u k' h'
  cases s with
  | nil => exact hne rfl
  | cons c s =>
    rw [List.cons_append] at h'
    exact hr d r e ((lexeme_decimal (hs c List.mem_cons_self) h').1 d (by simp))

theorem longest_binary {s rest : Str} {k : Loc → Token} (hL : Lexeme bin ('%' :: s) k)
    (hr : ∀ d r, rest = d :: r → ¬ Binary d) : Longest bin ('%' :: s) rest k := by
  refine longest_of_stop hL ?_
  intro d r e u k' h'
  rw [List.cons_append] at h'
  exact hr d r e ((lexeme_binary h').2.1 d (by simp))

theorem longest_string {s rest : Str} (hs : StringBody s) : Longest bin ('"' :: (s ++ ['"'])) rest (.stringLiteral s) := by
  refine longest_of_stop (.string hs) ?_
  intro d r e u k' h'
  rw [List.cons_append] at h'
  obtain ⟨b, h1, hb, _⟩ := lexeme_string h'
  have := stringBody_unique hs hb (r := d :: u) (r' := []) (by rw [← h1]; simp)
  subst this
  simp at h1

theorem longest_comment {s rest : Str} (hs : '\n' ∉ s) (hr : ∀ d r, rest = d :: r → d = '\n') :
    Longest bin (';' :: s) rest (.singleLineComment (';' :: s)) := by
  refine longest_of_stop (.comment hs) ?_
  intro d r e u k' h'
  rw [List.cons_append] at h'
  exact (lexeme_comment h').1 (by simp [hr d r e])

/-! ### Contents of tokens -/

theorem lex_mem {file before text : Str} {ts : List Token} (h : Lex bin file before text ts) {t : Token} (ht : t ∈ ts) :
    (∃ s k l, Lexeme bin s k ∧ t = k l) ∨ ∃ e l, t = .error e l := by
  induction h with
  | done _ => simp at ht
  | token _ hL _ _ ih =>
    simp only [List.mem_cons] at ht
    rcases ht with rfl | ht
    · exact .inl ⟨_, _, _, hL.1, rfl⟩
    · exact ih ht
  | outOfRange _ hL _ =>
    simp only [List.mem_singleton] at ht
    exact .inl ⟨_, _, _, hL.1, ht⟩
  | malformed _ _ _ _ =>
    simp only [List.mem_singleton] at ht
    exact .inr ⟨_, _, ht⟩

theorem lex_string_mem {file before text : Str} {ts : List Token} (h : Lex bin file before text ts) {b : Str} {l : Loc}
    (ht : .stringLiteral b l ∈ ts) : StringBody b := by
  rcases lex_mem h ht with ⟨s, k, l', hL, e⟩ | ⟨e, l', h⟩
  · cases hL with
    | string h =>
      simp only [Token.stringLiteral.injEq] at e
      rw [e.1]
      exact h
    | _ => simp at e
  · simp at h

theorem lex_comment_mem {file before text : Str} {ts : List Token} (h : Lex bin file before text ts) {b : Str} {l : Loc}
    (ht : .singleLineComment b l ∈ ts) : ∃ s, b = ';' :: s ∧ '\n' ∉ s := by
  rcases lex_mem h ht with ⟨s, k, l', hL, e⟩ | ⟨e, l', h⟩
  · cases hL with
    | comment h =>
      simp only [Token.singleLineComment.injEq] at e
      exact ⟨_, e.1, h⟩
    | _ => simp at e
  · simp at h

theorem lex_identifier_mem {file before text : Str} {ts : List Token} (h : Lex bin file before text ts) {b : Str} {l : Loc}
    (ht : .identifier b l ∈ ts) :
    (∃ c s, b = c :: s ∧ NameStart c ∧ ∀ d ∈ s, NameChar d) ∨ b = "[i]".toList ∨ b = "[I]".toList := by
  rcases lex_mem h ht with ⟨s, k, l', hL, e⟩ | ⟨e, l', h⟩
  · cases hL with
    | name h1 h2 =>
      simp only [Token.identifier.injEq] at e
      exact .inl ⟨_, _, e.1, h1, h2⟩
    | indirect h =>
      simp only [Token.identifier.injEq] at e
      rcases h with rfl | rfl
      · exact .inr (.inl e.1)
      · exact .inr (.inr e.1)
    | _ => simp at e
  · simp at h

theorem lex_numeric_mem {file before text : Str} {ts : List Token} (h : Lex bin file before text ts) {v : Nat} {l : Loc}
    (ht : .numericLiteral v l ∈ ts) : v ≤ 4095 := by
  rcases lex_mem h ht with ⟨s, k, l', hL, e⟩ | ⟨e, l', h⟩
  · exact ((lexeme_written hL l').2.2 v l e.symm).2
  · simp at h

theorem pieces_length {text : Str} {ts : List Token} {pieces : List (Str × Str)} {tail : Str}
    (h : Pieces text ts pieces tail) : ts.length ≤ text.length := by
  rw [← h.count, h.text_eq, List.length_append]
  have key : ∀ ps : List (Str × Str), (∀ p ∈ ps, p.2 ≠ []) → ps.length ≤ (ps.map fun p => p.1 ++ p.2).flatten.length := by
    intro ps hps
    induction ps with
    | nil => simp
    | cons p ps ih =>
      have h1 := ih fun q hq => hps q (List.mem_cons_of_mem _ hq)
      have h2 : p.2.length ≠ 0 := fun h0 => hps p List.mem_cons_self (List.length_eq_zero_iff.1 h0)
      simp only [List.map_cons, List.flatten_cons, List.length_append, List.length_cons]
      omega
  have := key pieces h.nonempty
  omega

end C8S
