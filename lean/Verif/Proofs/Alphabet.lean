import Verif.Spec.Alphabet
import Verif.Proofs.Lines

/- Helper lemmas for C112. -/

namespace C8S

open Spec

variable {bin : Str → Nat}

/-- Only comments, strings and the bracketed register contain a foreign character. -/
theorem foreign_mem {s : Str} {k : Loc → Token} {c : Char} (h : Lexeme bin s k) (hc : c ∈ s) (hf : Foreign c) :
    (∃ t, s = ';' :: t ∧ '\n' ∉ t ∧ k = .singleLineComment s) ∨
    (∃ b, s = '"' :: (b ++ ['"']) ∧ StringBody b ∧ k = .stringLiteral b) ∨
    (c = ']' ∧ (s = "[i]".toList ∨ s = "[I]".toList) ∧ k = .identifier s) := by
  have hn : ∀ d, Begins d → c ≠ d := by
    rintro d hd rfl
    exact hf.2 hd
  have hname : ∀ d, NameChar d → c ≠ d := by
    intro d hd
    rcases hd with hd | hd
    · exact hn d (.inl hd)
    · exact hn d (.inr (.inl hd))
  have hhex : ∀ d, Hexadecimal d → c ≠ d := by
    intro d hd
    refine hname d ?_
    rcases hd with hd | hd | hd
    · exact .inr hd
    · exact .inl (.inr (.inl ⟨hd.1, Char.le_trans hd.2 (by decide)⟩))
    · exact .inl (.inr (.inr ⟨hd.1, Char.le_trans hd.2 (by decide)⟩))
  have hbin : ∀ d, Binary d → c ≠ d := by
    intro d hd
    rcases hd with rfl | rfl | rfl <;> exact hn _ (by decide)
  cases h with
  | newline => exact absurd (List.mem_singleton.1 hc) (hn _ (by decide))
  | comma => exact absurd (List.mem_singleton.1 hc) (hn _ (by decide))
  | labelMarker => exact absurd (List.mem_singleton.1 hc) (hn _ (by decide))
  | directiveMarker => exact absurd (List.mem_singleton.1 hc) (hn _ (by decide))
  | comment h => exact .inl ⟨_, rfl, h, rfl⟩
  | name h1 h2 =>
    rcases List.mem_cons.1 hc with e | hm
    · exact absurd e (hn _ (.inl h1))
    · exact absurd rfl (hname _ (h2 _ hm))
  | indirect h =>
    rcases h with rfl | rfl
    · simp only [List.mem_cons, List.not_mem_nil, or_false] at hc
      rcases hc with e | e | e
      · exact absurd e (hn _ (by decide))
      · exact absurd e (hn _ (by decide))
      · exact .inr (.inr ⟨e, .inl rfl, rfl⟩)
    · simp only [List.mem_cons, List.not_mem_nil, or_false] at hc
      rcases hc with e | e | e
      · exact absurd e (hn _ (by decide))
      · exact absurd e (hn _ (by decide))
      · exact .inr (.inr ⟨e, .inr rfl, rfl⟩)
  | string h => exact .inr (.inl ⟨_, rfl, h, rfl⟩)
  | hex h1 _ _ h2 =>
    rcases List.mem_cons.1 hc with e | hm
    · rcases h1 with rfl | rfl <;> exact absurd e (hn _ (by decide))
    · exact absurd rfl (hhex _ (h2 _ hm))
  | decimal _ h => exact absurd rfl (hname _ (.inr (h _ hc)))
  | decimalRange _ h => exact absurd rfl (hname _ (.inr (h _ hc)))
  | binary _ h =>
    rcases List.mem_cons.1 hc with e | hm
    · exact absurd e (hn _ (by decide))
    · exact absurd rfl (hbin _ (h _ hm))
  | binaryRange _ h =>
    rcases List.mem_cons.1 hc with e | hm
    · exact absurd e (hn _ (by decide))
    · exact absurd rfl (hbin _ (h _ hm))

/-- A text with a longer rest: the token stays the longest if a foreign character follows, unless it is a comment at the
end. -/
theorem longest_foreign {s rest ext : Str} {k : Loc → Token} {c : Char} (h : Longest bin s rest k) (hf : Foreign c)
    (hk : rest = [] → ∀ t, k ≠ .singleLineComment t) : Longest bin s (rest ++ c :: ext) k := by
  refine ⟨h.1, ?_⟩
  intro s' rest' k' e h'
  by_cases hl : s'.length ≤ (s ++ rest).length
  · obtain ⟨u, hu⟩ : s' <+: s ++ rest := by
      refine List.prefix_of_prefix_length_le (l₃ := s' ++ rest') (List.prefix_append _ _) ?_ hl
      rw [e]
      exact ⟨c :: ext, by simp⟩
    exact h.2 s' u k' hu h'
  · obtain ⟨u, rfl⟩ : s ++ rest ++ [c] <+: s' := by
      refine List.prefix_of_prefix_length_le (l₃ := s' ++ rest') ?_ (List.prefix_append s' rest') (by simp at hl ⊢; omega)
      rw [e]
      exact ⟨ext, by simp⟩
    obtain ⟨d, t, rfl⟩ : ∃ d t, s = d :: t := by
      cases s with
      | nil => exact absurd rfl (lexeme_ne_nil h.1)
      | cons d t => exact ⟨d, t, rfl⟩
    rcases foreign_mem h' (c := c) (by simp) hf with ⟨t', h1, hn, -⟩ | ⟨b, h1, hb, -⟩ | ⟨-, h1, -⟩
    · exfalso
      simp only [List.cons_append, List.cons.injEq] at h1
      obtain ⟨rfl, rfl⟩ := h1
      obtain ⟨-, rfl⟩ := lexeme_comment h.1
      have h2 : Lexeme bin (';' :: (t ++ rest)) (.singleLineComment (';' :: (t ++ rest))) :=
        .comment fun hm => hn (by simp only [List.mem_append] at hm ⊢; exact .inl (.inl hm))
      have h3 := h.2 (';' :: (t ++ rest)) [] _ (by simp) h2
      have h4 : rest = [] := List.length_eq_zero_iff.1 (by simp at h3; omega)
      exact hk h4 _ rfl
    · simp only [List.cons_append, List.cons.injEq] at h1
      obtain ⟨rfl, h1⟩ := h1
      obtain ⟨b', rfl, hb', -⟩ := lexeme_string h.1
      have : b' = b := stringBody_unique hb' hb (r := rest ++ [c] ++ u) (r' := []) (by rw [← h1]; simp)
      subst this
      have := congrArg List.length h1
      simp at this
    · have hd : d = '[' := by
        rcases h1 with h1 | h1 <;> exact (List.cons.inj h1).1
      subst hd
      have ht : t.length = 2 := by
        rcases (lexeme_indirect h.1).1 with rfl | rfl <;> rfl
      rcases h1 with h1 | h1
      · have := congrArg List.length h1
        simp only [List.length_append, List.length_cons, ht] at this ⊢
        simp at this ⊢
        omega
      · have := congrArg List.length h1
        simp only [List.length_append, List.length_cons, ht] at this ⊢
        simp at this ⊢
        omega

theorem foreign_none {c : Char} (hf : Foreign c) (rest : Str) : ∀ s rest' k, s ++ rest' = c :: rest → ¬ Lexeme bin s k := by
  intro s rest' k e h
  obtain ⟨d, t, rfl⟩ : ∃ d t, s = d :: t := by
    cases s with
    | nil => exact absurd rfl (lexeme_ne_nil h)
    | cons d t => exact ⟨d, t, rfl⟩
  simp only [List.cons_append, List.cons.injEq] at e
  obtain ⟨rfl, -⟩ := e
  rcases foreign_mem h List.mem_cons_self hf with ⟨t', h1, -⟩ | ⟨b, h1, -⟩ | ⟨-, h1, -⟩
  · rw [(List.cons.inj h1).1] at hf
    exact absurd hf (by decide)
  · rw [(List.cons.inj h1).1] at hf
    exact absurd hf (by decide)
  · rcases h1 with h1 | h1
    · rw [(List.cons.inj h1).1] at hf
      exact absurd hf (by decide)
    · rw [(List.cons.inj h1).1] at hf
      exact absurd hf (by decide)

theorem foreign_malformed {c : Char} (hf : Foreign c) : Malformed c (.invalidCharacter c) := by
  refine .other ?_ ?_ ?_ ?_ ?_ <;> · rintro rfl; exact absurd hf (by decide)

theorem lex_nil {file before : Str} {ts : List Token} (h : Lex bin file before [] ts) : ts = [] :=
  lex_unique h (.done (by simp))

/-- A foreign character after complete tokens is reported. -/
theorem lex_foreign {file before text rest : Str} {ts : List Token} {c : Char} (h : Lex bin file before text ts)
    (he : Errorless ts) (hc : ¬ EndsInComment ts) (hf : Foreign c) :
    Lex bin file before (text ++ c :: rest) (ts ++ [.error (.invalidCharacter c) (locate file (before ++ text) [c])]) := by
  induction h with
  | done hb => exact .malformed hb hf.1 (foreign_none hf _) (foreign_malformed hf)
  | @token before blanks s r k ts hb hL hE hr ih =>
    have he' : Errorless ts := fun e l hm => he e l (List.mem_cons_of_mem _ hm)
    have hc' : ¬ EndsInComment ts := by
      rintro ⟨t, l, ht⟩
      refine hc ⟨t, l, ?_⟩
      rw [List.getLast?_cons, ht]
      rfl
    have hk : r = [] → ∀ t, k ≠ .singleLineComment t := by
      rintro rfl t rfl
      rw [lex_nil hr] at hc
      exact hc ⟨t, _, rfl⟩
    have h1 := Lex.token hb (longest_foreign hL hf hk (ext := rest)) hE (ih he' hc')
    simpa [List.append_assoc] using h1
  | @outOfRange before blanks s r k hb hL hE =>
    obtain ⟨e, rfl⟩ := hE
    exact absurd List.mem_cons_self (he e _)
  | malformed => exact absurd List.mem_cons_self (he _ _)

theorem longest_shorter {s rest ext : Str} {k : Loc → Token} (h : Longest bin s (rest ++ ext) k) : Longest bin s rest k :=
  ⟨h.1, fun s' rest' k' e h' => h.2 s' (rest' ++ ext) k' (by rw [← List.append_assoc, e, List.append_assoc]) h'⟩

theorem begins_lexeme {c : Char} (h : Begins c) (hs : c ≠ '"') (h1 : c ≠ '$') (h2 : c ≠ '#') (h3 : c ≠ '%') (h4 : c ≠ '[') :
    ∃ k, Lexeme bin [c] k := by
  rcases h with h | h | h
  · exact ⟨_, .name h (by simp)⟩
  · by_cases hv : positional 10 [c] ≤ 4095
    · exact ⟨_, .decimal (by simp) (by simpa using h) hv⟩
    · exact ⟨_, .decimalRange (by simp) (by simpa using h) (by omega)⟩
  · simp only [List.mem_cons, List.not_mem_nil, or_false] at h
    rcases h with rfl | rfl | rfl | rfl | rfl | rfl | rfl | rfl | rfl | rfl
    · exact ⟨_, .newline⟩
    · exact ⟨_, .comma⟩
    · exact ⟨_, .labelMarker⟩
    · exact ⟨_, .directiveMarker⟩
    · exact ⟨_, .comment (by simp)⟩
    all_goals contradiction

/-- Where an invalid character that is reported stands. -/
theorem lex_invalid {file before text : Str} {ts all : List Token} {c : Char} {l : Loc} (h : Lex bin file before text all)
    (ha : all = ts ++ [.error (.invalidCharacter c) l]) :
    ∃ a rest, text = a ++ c :: rest ∧ Lex bin file before a ts ∧ Errorless ts ∧ ¬ EndsInComment ts ∧ Foreign c ∧
      l = locate file (before ++ a) [c] := by
  induction h generalizing ts with
  | done => simp at ha
  | @token before blanks s r k ts0 hb hL hE hr ih =>
    cases ts with
    | nil =>
      simp only [List.nil_append, List.cons.injEq] at ha
      obtain ⟨hk, rfl⟩ := ha
      exfalso
      have := (lexeme_written hL.1 (locate file (before ++ blanks) s)).1
      cases hL.1 <;> first | (cases hk; done) | (exact hE ⟨_, rfl⟩)
    | cons t ts =>
      simp only [List.cons_append, List.cons.injEq] at ha
      obtain ⟨rfl, ha⟩ := ha
      obtain ⟨a, rest, rfl, h1, h2, h3, h4, h5⟩ := ih ha
      refine ⟨blanks ++ s ++ a, rest, by simp, .token hb (longest_shorter hL) hE h1, ?_, ?_, h4, ?_⟩
      · intro e l' hm
        rcases List.mem_cons.1 hm with hm | hm
        · refine hE ?_
          cases hL.1 <;> first | (cases hm; done) | exact ⟨_, rfl⟩
        · exact h2 e l' hm
      · rintro ⟨t, l', ht⟩
        cases ts with
        | nil =>
          simp only [List.getLast?_singleton, Option.some.injEq] at ht
          have hkc : ∃ u, s = ';' :: u ∧ '\n' ∉ u := by
            cases hL.1 <;> first | (cases ht; done) | (rename_i h; exact ⟨_, rfl, h⟩)
          obtain ⟨u, rfl, hu⟩ := hkc
          have hblank : ∀ x ∈ a, Blank x := by
            rcases lex_inv h1 with ⟨hb, _⟩ | ⟨_, _, _, _, _, _, _, _, _, e, _⟩ | ⟨_, _, _, _, _, _, _, _, e⟩ | ⟨_, _, _, _, _, _, _, _, _, e⟩
            · exact hb
            all_goals cases e
          have h6 : Lexeme bin (';' :: (u ++ a ++ [c])) (.singleLineComment (';' :: (u ++ a ++ [c]))) := by
            refine .comment fun hm => ?_
            simp only [List.mem_append, List.mem_singleton] at hm
            rcases hm with (hm | hm) | hm
            · exact hu hm
            · exact (hblank _ hm).2 rfl
            · subst hm
              exact h4.2 (by decide)
          have h7 := hL.2 _ rest _ (by simp) h6
          simp at h7
          omega
        | cons t' ts =>
          refine h3 ⟨t, l', ?_⟩
          rw [← ht]
          simp [List.getLast?_cons]
      · rw [h5]
        simp [List.append_assoc]
  | @outOfRange before blanks s r k hb hL hE =>
    cases ts with
    | nil =>
      simp only [List.nil_append, List.cons.injEq, and_true] at ha
      cases hL.1 <;> cases ha
    | cons t ts =>
      simp at ha
  | @malformed before blanks rest c' e hb hnb hno hm =>
    cases ts with
    | nil =>
      simp only [List.nil_append, List.cons.injEq, and_true, Token.error.injEq] at ha
      obtain ⟨he, rfl⟩ := ha
      subst he
      cases hm with
      | other h0 h1 h2 h3 h4 =>
        refine ⟨blanks, rest, rfl, .done hb, (by intro e l hm; cases hm), (by rintro ⟨t, l, h⟩; cases h), ⟨hnb, ?_⟩, rfl⟩
        intro hbeg
        obtain ⟨k, hk⟩ := begins_lexeme (bin := bin) hbeg h0 h1 h2 h3 h4
        exact hno [c] rest k rfl hk
    | cons t ts => simp at ha

/-- Where a foreign character stands in a text without lexical errors. -/
theorem lex_where {file before text a rest : Str} {ts : List Token} {c : Char} (h : Lex bin file before text ts)
    (he : Errorless ts) (hf : Foreign c) (ht : text = a ++ c :: rest) :
    ∃ x u v y t, a = x ++ u ∧ rest = v ++ y ∧ t ∈ ts ∧ t.location = locate file (before ++ x) (u ++ c :: v) ∧
      (t = .singleLineComment (u ++ c :: v) t.location ∨
       (∃ b, t = .stringLiteral b t.location ∧ u ++ c :: v = '"' :: (b ++ ['"'])) ∨
       (c = ']' ∧ t = .identifier (u ++ c :: v) t.location ∧ (u ++ c :: v = "[i]".toList ∨ u ++ c :: v = "[I]".toList))) := by
  induction h generalizing a with
  | done hb => exact absurd (hb c (by rw [ht]; simp)) hf.1
  | @token before blanks s r k ts hb hL hE hr ih =>
    by_cases h1 : a.length < blanks.length
    · exfalso
      have : c ∈ blanks := by
        have e := congrArg (·[a.length]?) ht
        simp only [List.append_assoc] at e
        rw [List.getElem?_append_left h1, List.getElem?_append_right (Nat.le_refl _)] at e
        simp at e
        exact List.mem_of_getElem? e
      exact hf.1 (hb _ this)
    · obtain ⟨u, rfl⟩ : blanks <+: a := by
        refine List.prefix_of_prefix_length_le (l₃ := a ++ c :: rest) ?_ (List.prefix_append _ _) (by omega)
        rw [← ht]
        exact ⟨s ++ r, by simp⟩
      rw [List.append_assoc, List.append_assoc] at ht
      have ht := List.append_cancel_left ht
      by_cases h2 : u.length < s.length
      · obtain ⟨w, hw⟩ : u ++ [c] <+: s := by
          refine List.prefix_of_prefix_length_le (l₃ := s ++ r) ?_ (List.prefix_append _ _) (by simp; omega)
          rw [ht]
          exact ⟨rest, by simp⟩
        have hs : s = u ++ c :: w := by rw [← hw]; simp
        have hr' : rest = w ++ r := by
          rw [hs] at ht
          simp only [List.append_assoc, List.cons_append] at ht
          exact ((List.cons.inj (List.append_cancel_left ht)).2).symm
        refine ⟨blanks, u, w, r, _, rfl, hr', List.mem_cons_self, ?_⟩
        rw [← hs]
        rcases foreign_mem hL.1 (c := c) (by rw [hs]; simp) hf with ⟨t, e, -, rfl⟩ | ⟨b, e, -, rfl⟩ | ⟨rfl, e, rfl⟩
        · exact ⟨rfl, .inl rfl⟩
        · exact ⟨rfl, .inr (.inl ⟨b, rfl, e⟩)⟩
        · exact ⟨rfl, .inr (.inr ⟨rfl, rfl, e⟩)⟩
      · obtain ⟨w, rfl⟩ : s <+: u := by
          refine List.prefix_of_prefix_length_le (l₃ := u ++ c :: rest) ?_ (List.prefix_append _ _) (by omega)
          rw [← ht]
          exact ⟨r, rfl⟩
        rw [List.append_assoc] at ht
        have ht := List.append_cancel_left ht
        obtain ⟨x, u, v, y, t, e1, e2, h3, h4, h5⟩ := ih (fun e l hm => he e l (List.mem_cons_of_mem _ hm)) ht
        refine ⟨blanks ++ s ++ x, u, v, y, t, by rw [e1]; simp, e2, List.mem_cons_of_mem _ h3, ?_, h5⟩
        rw [h4]
        simp [List.append_assoc]
  | @outOfRange before blanks s r k hb hL hE =>
    obtain ⟨e, rfl⟩ := hE
    exact absurd List.mem_cons_self (he e _)
  | malformed => exact absurd List.mem_cons_self (he _ _)

end C8S
