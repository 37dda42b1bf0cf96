import Verif.Proofs.Lex

/- Consequences of the lexical specification. -/

namespace C8S

open Spec

variable {bin bin' : Str → Nat}

/-! ### Uniqueness -/

theorem lex_inv {file before text : Str} {tokens : List Token} (h : Lex bin file before text tokens) :
    ((∀ c ∈ text, Blank c) ∧ tokens = []) ∨
    (∃ blanks s rest k ts, text = blanks ++ (s ++ rest) ∧ (∀ c ∈ blanks, Blank c) ∧ Longest bin s rest k ∧ ¬ IsError k ∧
      tokens = k (locate file (before ++ blanks) s) :: ts ∧ Lex bin file (before ++ blanks ++ s) rest ts) ∨
    (∃ blanks s rest k, text = blanks ++ (s ++ rest) ∧ (∀ c ∈ blanks, Blank c) ∧ Longest bin s rest k ∧ IsError k ∧
      tokens = [k (locate file (before ++ blanks) s)]) ∨
    (∃ blanks c rest e, text = blanks ++ c :: rest ∧ (∀ c ∈ blanks, Blank c) ∧ ¬ Blank c ∧
      (∀ s rest' k, s ++ rest' = c :: rest → ¬ Lexeme bin s k) ∧ Malformed c e ∧
      tokens = [.error e (locate file (before ++ blanks) [c])]) := by
  cases h with
  | done h => exact .inl ⟨h, rfl⟩
  | @token _ blanks s rest k ts h1 h2 h3 h4 =>
    exact .inr (.inl ⟨blanks, s, rest, k, ts, by simp, h1, h2, h3, rfl, h4⟩)
  | @outOfRange _ blanks s rest k h1 h2 h3 =>
    exact .inr (.inr (.inl ⟨blanks, s, rest, k, by simp, h1, h2, h3, rfl⟩))
  | @malformed _ blanks rest c e h1 h2 h3 h4 =>
    exact .inr (.inr (.inr ⟨blanks, c, rest, e, rfl, h1, h2, h3, h4, rfl⟩))

theorem blank_split {b b' r r' : Str} {c c' : Char} (hb : ∀ x ∈ b, Blank x) (hb' : ∀ x ∈ b', Blank x)
    (hc : ¬ Blank c) (hc' : ¬ Blank c') (e : b ++ c :: r = b' ++ c' :: r') : b = b' ∧ c :: r = c' :: r' := by
  induction b generalizing b' with
  | nil =>
    cases b' with
    | nil => exact ⟨rfl, e⟩
    | cons x b' =>
      simp at e
      exact (hc (e.1 ▸ hb' x List.mem_cons_self)).elim
  | cons x b ih =>
    cases b' with
    | nil =>
      simp at e
      exact (hc' (e.1 ▸ hb x List.mem_cons_self)).elim
    | cons y b' =>
      simp at e
      obtain ⟨h1, h2⟩ := ih (fun x hx => hb x (List.mem_cons_of_mem _ hx)) (fun x hx => hb' x (List.mem_cons_of_mem _ hx))
        (by simpa using e.2)
      exact ⟨by rw [e.1, h1], h2⟩

theorem malformed_unique {c : Char} {e e' : ScanError} (h : Malformed c e) (h' : Malformed c e') : e = e' := by
  cases h with
  | string => cases h' with
    | string => rfl
    | hex h => simp at h
    | other h => exact (h rfl).elim
  | hex h => cases h' with
    | string => simp at h
    | hex _ => rfl
    | binary => simp at h
    | indirect => simp at h
    | other _ h1 h2 =>
      rcases h with h | h
      · exact (h1 h).elim
      · exact (h2 h).elim
  | binary => cases h' with
    | binary => rfl
    | hex h => simp at h
    | other _ _ _ h => exact (h rfl).elim
  | indirect => cases h' with
    | indirect => rfl
    | hex h => simp at h
    | other _ _ _ _ h => exact (h rfl).elim
  | other h1 h2 h3 h4 h5 => cases h' with
    | string => exact (h1 rfl).elim
    | hex h =>
      rcases h with h | h
      · exact (h2 h).elim
      · exact (h3 h).elim
    | binary => exact (h4 rfl).elim
    | indirect => exact (h5 rfl).elim
    | other => rfl

/-- A token of a text begins with a character that is not a blank. -/
theorem longest_head {s rest : Str} {k : Loc → Token} (h : Longest bin s rest k) :
    ∃ c r, s = c :: r ∧ ¬ Blank c := by
  cases s with
  | nil => exact (lexeme_ne_nil h.1 rfl).elim
  | cons c r => exact ⟨c, r, rfl, lexeme_not_blank h.1⟩

theorem blanks_no_token {text blanks : Str} {c : Char} {r : Str} (h : ∀ x ∈ text, Blank x)
    (e : text = blanks ++ c :: r) (hc : ¬ Blank c) : False :=
  hc (h c (by rw [e]; simp))

theorem lex_unique {file before text : Str} {ts ts' : List Token} (h : Lex bin file before text ts)
    (h' : Lex bin file before text ts') : ts = ts' := by
  induction h generalizing ts' with
  | @done before blanks hb =>
    rcases lex_inv h' with ⟨_, rfl⟩ | ⟨b, s, r, k, ts, e, _, hL, _⟩ | ⟨b, s, r, k, e, _, hL, _⟩ | ⟨b, c, r, er, e, _, hc, _⟩
    · rfl
    · obtain ⟨c, r', rfl, hc⟩ := longest_head hL
      exact (blanks_no_token hb e hc).elim
    · obtain ⟨c, r', rfl, hc⟩ := longest_head hL
      exact (blanks_no_token hb e hc).elim
    · exact (blanks_no_token hb e hc).elim
  | @token before blanks s rest k ts hb hL hE _ ih =>
    obtain ⟨c, s1, rfl, hc⟩ := longest_head hL
    rcases lex_inv h' with ⟨h1, _⟩ | ⟨b, s, r, k', ts, e, hb', hL', hE', rfl, h2⟩ | ⟨b, s, r, k', e, hb', hL', hE', _⟩ |
      ⟨b, c', r, er, e, hb', hc', hn, _⟩
    · exact (hc (h1 c (by simp))).elim
    · obtain ⟨c', s2, rfl, hc'⟩ := longest_head hL'
      obtain ⟨rfl, e2⟩ := blank_split hb hb' hc hc' (by simpa using e)
      obtain ⟨h3, rfl, rfl⟩ := longest_unique hL hL' (by simpa using e2)
      simp only [List.cons.injEq] at h3
      obtain ⟨rfl, rfl⟩ := h3
      rw [ih h2]
    · obtain ⟨c', s2, rfl, hc'⟩ := longest_head hL'
      obtain ⟨rfl, e2⟩ := blank_split hb hb' hc hc' (by simpa using e)
      obtain ⟨_, _, rfl⟩ := longest_unique hL hL' (by simpa using e2)
      exact (hE hE').elim
    · obtain ⟨rfl, e2⟩ := blank_split hb hb' hc hc' (by simpa using e)
      exact (hn (c :: s1) rest k (by simpa using e2) hL.1).elim
  | @outOfRange before blanks s rest k hb hL hE =>
    obtain ⟨c, s1, rfl, hc⟩ := longest_head hL
    rcases lex_inv h' with ⟨h1, _⟩ | ⟨b, s, r, k', ts, e, hb', hL', hE', rfl, h2⟩ | ⟨b, s, r, k', e, hb', hL', hE', rfl⟩ |
      ⟨b, c', r, er, e, hb', hc', hn, _⟩
    · exact (hc (h1 c (by simp))).elim
    · obtain ⟨c', s2, rfl, hc'⟩ := longest_head hL'
      obtain ⟨rfl, e2⟩ := blank_split hb hb' hc hc' (by simpa using e)
      obtain ⟨_, _, rfl⟩ := longest_unique hL hL' (by simpa using e2)
      exact (hE' hE).elim
    · obtain ⟨c', s2, rfl, hc'⟩ := longest_head hL'
      obtain ⟨rfl, e2⟩ := blank_split hb hb' hc hc' (by simpa using e)
      obtain ⟨h3, rfl, rfl⟩ := longest_unique hL hL' (by simpa using e2)
      rw [h3]
    · obtain ⟨rfl, e2⟩ := blank_split hb hb' hc hc' (by simpa using e)
      exact (hn (c :: s1) rest k (by simpa using e2) hL.1).elim
  | @malformed before blanks rest c er hb hc hn hM =>
    rcases lex_inv h' with ⟨h1, _⟩ | ⟨b, s, r, k', ts, e, hb', hL', hE', rfl, h2⟩ | ⟨b, s, r, k', e, hb', hL', hE', rfl⟩ |
      ⟨b, c', r, er', e, hb', hc', hn', hM', rfl⟩
    · exact (hc (h1 c (by simp))).elim
    · obtain ⟨c', s2, rfl, hc'⟩ := longest_head hL'
      obtain ⟨rfl, e2⟩ := blank_split hb hb' hc hc' (by simpa using e)
      exact (hn _ r _ (by simpa using e2.symm) hL'.1).elim
    · obtain ⟨c', s2, rfl, hc'⟩ := longest_head hL'
      obtain ⟨rfl, e2⟩ := blank_split hb hb' hc hc' (by simpa using e)
      exact (hn _ r _ (by simpa using e2.symm) hL'.1).elim
    · obtain ⟨rfl, e2⟩ := blank_split hb hb' hc hc' e
      simp only [List.cons.injEq] at e2
      obtain ⟨rfl, rfl⟩ := e2
      rw [malformed_unique hM hM']

/-! ### Changing the reading of binary digits -/

/-- The two readings agree on the binary literals that occur in the text. -/
def AgreeOn (bin bin' : Str → Nat) (text : Str) : Prop :=
  ∀ before s rest, text = before ++ '%' :: s ++ rest → (∀ d ∈ s, Binary d) → bin s = bin' s

theorem AgreeOn.symm {text : Str} (h : AgreeOn bin bin' text) : AgreeOn bin' bin text :=
  fun a b c e hd => (h a b c e hd).symm

theorem AgreeOn.suffix {a text : Str} (h : AgreeOn bin bin' (a ++ text)) : AgreeOn bin bin' text := by
  intro b s r e hd
  exact h (a ++ b) s r (by rw [e]; simp) hd

theorem lexeme_agree {s rest : Str} {k : Loc → Token} (ha : AgreeOn bin bin' (s ++ rest)) (h : Lexeme bin s k) :
    Lexeme bin' s k := by
  cases h with
  | newline => exact .newline
  | comma => exact .comma
  | labelMarker => exact .labelMarker
  | directiveMarker => exact .directiveMarker
  | comment h => exact .comment h
  | name h1 h2 => exact .name h1 h2
  | indirect h => exact .indirect h
  | string h => exact .string h
  | hex h1 h2 h3 h4 => exact .hex h1 h2 h3 h4
  | decimal h1 h2 h3 => exact .decimal h1 h2 h3
  | decimalRange h1 h2 h3 => exact .decimalRange h1 h2 h3
  | @binary s h1 h2 h3 =>
    have e := ha [] s rest (by simp) h2
    rw [e] at h3 ⊢
    exact .binary h1 h2 h3
  | @binaryRange s h1 h2 h3 =>
    have e := ha [] s rest (by simp) h2
    rw [e] at h3
    exact .binaryRange h1 h2 h3

theorem longest_agree {s rest : Str} {k : Loc → Token} (ha : AgreeOn bin bin' (s ++ rest)) (h : Longest bin s rest k) :
    Longest bin' s rest k := by
  refine ⟨lexeme_agree ha h.1, ?_⟩
  intro s' rest' k' e h'
  exact h.2 s' rest' k' e (lexeme_agree (e ▸ ha.symm) h')

theorem lex_agree {file before text : Str} {ts : List Token} (ha : AgreeOn bin bin' text)
    (h : Lex bin file before text ts) : Lex bin' file before text ts := by
  induction h with
  | done h => exact .done h
  | @token before blanks s rest k ts hb hL hE _ ih =>
    have ha1 : AgreeOn bin bin' (s ++ rest) := by
      rw [List.append_assoc] at ha
      exact ha.suffix
    exact .token hb (longest_agree ha1 hL) hE (ih ha1.suffix)
  | @outOfRange before blanks s rest k hb hL hE =>
    have ha1 : AgreeOn bin bin' (s ++ rest) := by
      rw [List.append_assoc] at ha
      exact ha.suffix
    exact .outOfRange hb (longest_agree ha1 hL) hE
  | malformed hb hc hn hM =>
    refine .malformed hb hc ?_ hM
    intro s rest' k e hl
    exact hn s rest' k e (lexeme_agree (e ▸ ha.suffix.symm) hl)

theorem agree_of_small [Target] {text : Str} (h : SmallBinaries text) : AgreeOn wordBinary trueBinary text := by
  intro b s r e hd
  exact Nat.mod_eq_of_lt (h b s r e hd)

/-! ### What follows a token -/

/-- A condition on the text after a token that makes the token the longest one. -/
theorem longest_of_stop {s rest : Str} {k : Loc → Token} (h : Lexeme bin s k)
    (hstop : ∀ d r, rest = d :: r → ∀ u k', ¬ Lexeme bin (s ++ d :: u) k') : Longest bin s rest k := by
  refine ⟨h, ?_⟩
  intro s' rest' k' e h'
  by_cases hl : s'.length ≤ s.length
  · exact hl
  · exfalso
    obtain ⟨u, rfl⟩ : s <+: s' := by
      refine List.prefix_of_prefix_length_le (l₃ := s' ++ rest') ?_ (List.prefix_append s' rest') (by omega)
      rw [e]
      exact List.prefix_append s rest
    cases u with
    | nil => simp at hl
    | cons d u =>
      rw [List.append_assoc] at e
      have e := List.append_cancel_left e
      exact hstop d (u ++ rest') e.symm u k' h'

/-- A token that is not a string ends before a newline or is a newline. -/
theorem lexeme_newline_mem {s : Str} {k : Loc → Token} (h : Lexeme bin s k) (hm : '\n' ∈ s) :
    s = ['\n'] ∨ ∃ b, s = '"' :: (b ++ ['"']) ∧ StringBody b := by
  cases h with
  | newline => exact .inl rfl
  | comma => simp at hm
  | labelMarker => simp at hm
  | directiveMarker => simp at hm
  | comment h =>
    simp at hm
    exact (h hm).elim
  | name h1 h2 =>
    simp only [List.mem_cons] at hm
    rcases hm with rfl | hm
    · exact absurd h1 (by decide)
    · exact absurd (h2 _ hm) (by decide)
  | indirect h => rcases h with rfl | rfl <;> simp at hm
  | string h => exact .inr ⟨_, rfl, h⟩
  | hex h1 _ _ h2 =>
    simp only [List.mem_cons] at hm
    rcases hm with rfl | hm
    · simp at h1
    · exact absurd (h2 _ hm) (by decide)
  | decimal _ h => exact absurd (h _ hm) (by decide)
  | decimalRange _ h => exact absurd (h _ hm) (by decide)
  | binary _ h =>
    simp only [List.mem_cons] at hm
    rcases hm with hm | hm
    · simp at hm
    · exact absurd (h _ hm) (by decide)
  | binaryRange _ h =>
    simp only [List.mem_cons] at hm
    rcases hm with hm | hm
    · simp at hm
    · exact absurd (h _ hm) (by decide)

/-- A token with a newline after it in the text stays the longest when text is added after that newline. -/
theorem longest_extend {s rest ext : Str} {k : Loc → Token} (h : Longest bin s (rest ++ ['\n']) k) :
    Longest bin s (rest ++ '\n' :: ext) k := by
  refine ⟨h.1, ?_⟩
  intro s' rest' k' e h'
  by_cases hl : s'.length ≤ (s ++ (rest ++ ['\n'])).length
  · obtain ⟨u, hu⟩ : s' <+: s ++ (rest ++ ['\n']) := by
      refine List.prefix_of_prefix_length_le (l₃ := s' ++ rest') (List.prefix_append _ _) ?_ hl
      rw [e]
      refine ⟨ext, by simp⟩
    exact h.2 s' u k' hu h'
  · exfalso
    obtain ⟨u, rfl⟩ : s ++ (rest ++ ['\n']) <+: s' := by
      refine List.prefix_of_prefix_length_le (l₃ := s' ++ rest') ?_ (List.prefix_append s' rest') (by omega)
      rw [e]
      refine ⟨ext, by simp⟩
    have hne := lexeme_ne_nil h.1
    rcases lexeme_newline_mem h' (by simp) with h1 | ⟨b, h1, hb⟩
    · have := congrArg List.length h1
      simp at this
      exact hne (List.length_eq_zero_iff.1 (by omega))
    · -- a string that passes the newline: then `s` is itself that string
      cases s with
      | nil => exact hne rfl
      | cons c t =>
        simp only [List.cons_append, List.cons.injEq] at h1
        obtain ⟨rfl, h1⟩ := h1
        obtain ⟨b', rfl, hb', -⟩ := lexeme_string h.1
        have : b' = b := stringBody_unique hb' hb (r := rest ++ ['\n'] ++ u) (r' := []) (by rw [← h1]; simp)
        subst this
        have := congrArg List.length h1
        simp at this

/-- Text up to a newline is tokenised whatever follows it. -/
theorem lex_append {file before text rest : Str} {ts ts' : List Token} (h : Lex bin file before (text ++ ['\n']) ts)
    (hno : ∀ e l, .error e l ∉ ts) (h' : Lex bin file (before ++ text ++ ['\n']) rest ts') :
    Lex bin file before (text ++ '\n' :: rest) (ts ++ ts') := by
  generalize hx : text ++ ['\n'] = x at h
  induction h generalizing text with
  | @done before blanks hb =>
    subst hx
    exact absurd (hb '\n' (by simp)) (by decide)
  | @token before blanks s r k ts hb hL hE hr ih =>
    rcases List.eq_nil_or_concat r with rfl | ⟨r1, last, hr1⟩
    · -- the last token of the text
      rw [List.append_nil] at hx
      have hnl : '\n' ∈ s := by
        have : (blanks ++ s).getLast? = some '\n' := by rw [← hx]; simp
        obtain ⟨c, s1, rfl, hc⟩ := longest_head hL
        have h1 : (c :: s1).getLast? = some '\n' := by
          rw [List.getLast?_append] at this
          simpa using this
        exact List.mem_of_getLast? h1
      have hs : s = ['\n'] := by
        rcases lexeme_newline_mem hL.1 hnl with h1 | ⟨b, rfl, hb'⟩
        · exact h1
        · have : (blanks ++ '"' :: (b ++ ['"'])).getLast? = some '\n' := by rw [← hx]; simp
          rw [show blanks ++ '"' :: (b ++ ['"']) = (blanks ++ '"' :: b) ++ ['"'] by simp, List.getLast?_append] at this
          simp at this
      subst hs
      have hblank : text = blanks := (List.append_inj' hx rfl).1
      subst hblank
      have hts : ts = [] := by
        rcases lex_inv hr with ⟨_, rfl⟩ | ⟨b, s, r, k, ts, e, _, hL, _⟩ | ⟨b, s, r, k, e, _, hL, _⟩ | ⟨b, c, r, er, e, _, hc, _⟩
        · rfl
        · obtain ⟨c, r', rfl, hc⟩ := longest_head hL
          simp at e
        · obtain ⟨c, r', rfl, hc⟩ := longest_head hL
          simp at e
        · simp at e
      subst hts
      have hk : k = .newline := (lexeme_newline hL.1).2
      subst hk
      rw [show text ++ '\n' :: rest = text ++ ['\n'] ++ rest by simp, List.cons_append, List.nil_append]
      exact .token hb (longest_single .newline fun u k' h => (lexeme_newline h).1) hE h'
    · rw [List.concat_eq_append] at hr1
      subst hr1
      rw [← List.append_assoc] at hx
      obtain ⟨hx1, hx2⟩ := List.append_inj' hx rfl
      simp only [List.cons.injEq, and_true] at hx2
      subst hx2 hx1
      have e : blanks ++ s ++ r1 ++ '\n' :: rest = blanks ++ s ++ (r1 ++ '\n' :: rest) := by simp
      rw [e, List.cons_append]
      refine .token hb (longest_extend hL) hE (ih ?_ ?_ rfl)
      · exact fun e l hm => hno e l (List.mem_cons_of_mem _ hm)
      · rw [show before ++ blanks ++ s ++ r1 ++ ['\n'] = before ++ (blanks ++ s ++ r1) ++ ['\n'] by simp]
        exact h'
  | outOfRange _ _ hE =>
    obtain ⟨e, rfl⟩ := hE
    exact (hno e _ List.mem_cons_self).elim
  | @malformed _ _ _ _ e => exact (hno e _ List.mem_cons_self).elim

/-! ### Errors -/

theorem lex_error_last {file before text : Str} {ts : List Token} (h : Lex bin file before text ts)
    {pre post : List Token} {e : ScanError} {l : Loc} (he : ts = pre ++ .error e l :: post) : post = [] := by
  induction h generalizing pre with
  | done _ => simp at he
  | token _ _ hE _ ih =>
    cases pre with
    | nil =>
      simp only [List.nil_append, List.cons.injEq] at he
      refine (hE ?_).elim
      have h1 := he.1
      rename_i hL _
      rcases hL with ⟨hL, _⟩
      cases hL <;> simp at h1 <;> exact ⟨_, rfl⟩
    | cons t pre =>
      simp only [List.cons_append, List.cons.injEq] at he
      exact ih he.2
  | outOfRange _ _ _ =>
    cases pre with
    | nil => simp at he; exact he.2
    | cons t pre => simp at he
  | malformed _ _ _ _ =>
    cases pre with
    | nil => simp at he; exact he.2
    | cons t pre => simp at he

end C8S
