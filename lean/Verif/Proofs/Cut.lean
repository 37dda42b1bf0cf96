import Verif.Spec.Cut
import Verif.Proofs.Lines
import Verif.Proofs.Locations
import Verif.Proofs.Tool

/- Tokens of a text without their locations. -/

namespace C8S

open Spec

variable {bin : Str → Nat}

/-- A character that continues a token, unless it is a comment, is a letter, a digit, an underscore or a dot. -/
theorem joins_char {s : Str} {k : Loc → Token} {d : Char} (h : Lexeme bin s k) (hj : Joins bin s d) :
    (∃ t, s = ';' :: t ∧ d ≠ '\n') ∨ (∃ c t, s = c :: t ∧ c ≠ ';') ∧ (NameChar d ∨ d = '.') := by
  obtain ⟨k', h'⟩ := hj
  cases h with
  | newline => exact absurd (lexeme_newline h').1 (by simp)
  | comma => exact absurd (lexeme_comma h').1 (by simp)
  | labelMarker => exact absurd (lexeme_labelMarker h').1 (by simp)
  | directiveMarker => exact absurd (lexeme_directiveMarker h').1 (by simp)
  | @comment t ht =>
    refine .inl ⟨t, rfl, ?_⟩
    rintro rfl
    exact (lexeme_comment h').1 (by simp)
  | @name c t hc ht =>
    exact .inr ⟨⟨c, t, rfl, (name_not_special hc).2.2.2.2.1⟩, .inl ((lexeme_name hc h').1 d (by simp))⟩
  | @indirect c hc =>
    have := (lexeme_indirect h').1
    simp at this
  | @string t ht =>
    obtain ⟨b, e, hb, _⟩ := lexeme_string (t := t ++ ['"'] ++ [d]) h'
    have := stringBody_unique ht hb (r := [d]) (r' := []) (by rw [← e]; simp)
    subst this
    simp at e
  | @hex c t hc ht1 ht2 ht3 =>
    refine .inr ⟨⟨c, t, rfl, by rcases hc with rfl | rfl <;> decide⟩, .inl ?_⟩
    rcases (lexeme_hex hc (t := t ++ [d]) h').2.2.1 d (by simp) with h | h | h
    · exact .inr h
    · refine .inl (.inr (.inl ⟨h.1, ?_⟩))
      exact Char.le_trans h.2 (by decide)
    · refine .inl (.inr (.inr ⟨h.1, ?_⟩))
      exact Char.le_trans h.2 (by decide)
  | decimal ht1 ht2 ht3 =>
    cases s with
    | nil => exact (ht1 rfl).elim
    | cons c t =>
      have hc := ht2 c List.mem_cons_self
      exact .inr ⟨⟨c, t, rfl, (dec_not_special hc).2.2.2.2.1⟩, .inl (.inr ((lexeme_decimal hc h').1 d (by simp)))⟩
  | decimalRange ht1 ht2 ht3 =>
    cases s with
    | nil => exact (ht1 rfl).elim
    | cons c t =>
      have hc := ht2 c List.mem_cons_self
      exact .inr ⟨⟨c, t, rfl, (dec_not_special hc).2.2.2.2.1⟩, .inl (.inr ((lexeme_decimal hc h').1 d (by simp)))⟩
  | @binary t ht1 ht2 ht3 =>
    refine .inr ⟨⟨_, _, rfl, by decide⟩, ?_⟩
    rcases (lexeme_binary (t := t ++ [d]) h').2.1 d (by simp) with rfl | rfl | rfl
    · exact .inl (by decide)
    · exact .inr rfl
    · exact .inl (by decide)
  | @binaryRange t ht1 ht2 ht3 =>
    refine .inr ⟨⟨_, _, rfl, by decide⟩, ?_⟩
    rcases (lexeme_binary (t := t ++ [d]) h').2.1 d (by simp) with rfl | rfl | rfl
    · exact .inl (by decide)
    · exact .inr rfl
    · exact .inl (by decide)

/-- If a token can be continued, then its next character alone continues it. -/
theorem joins_of_longer {s u : Str} {k k' : Loc → Token} {d : Char} (h : Lexeme bin s k)
    (h' : Lexeme bin (s ++ d :: u) k') : Joins bin s d := by
  cases h with
  | newline => exact absurd (lexeme_newline h').1 (by simp)
  | comma => exact absurd (lexeme_comma h').1 (by simp)
  | labelMarker => exact absurd (lexeme_labelMarker h').1 (by simp)
  | directiveMarker => exact absurd (lexeme_directiveMarker h').1 (by simp)
  | @comment t ht =>
    have := (lexeme_comment (t := t ++ d :: u) h').1
    exact ⟨_, .comment (s := t ++ [d]) (by simp_all)⟩
  | @name c t hc ht =>
    have := (lexeme_name hc (t := t ++ d :: u) h').1
    exact ⟨_, .name (s := t ++ [d]) hc (fun x hx => this x (by simp at hx ⊢; rcases hx with h | h <;> simp [h]))⟩
  | @indirect c hc =>
    have := (lexeme_indirect h').1
    simp at this
  | @string t ht =>
    obtain ⟨b, e, hb, _⟩ := lexeme_string (t := t ++ ['"'] ++ d :: u) h'
    have := stringBody_unique ht hb (r := d :: u) (r' := []) (by rw [← e]; simp)
    subst this
    simp at e
  | @hex c t hc ht1 ht2 ht3 =>
    obtain ⟨_, h1, h2, _⟩ := lexeme_hex hc (t := t ++ d :: u) h'
    refine ⟨_, .hex (s := t ++ [d]) hc (by simp) (by simp at h1 ⊢; omega) (fun x hx => h2 x ?_)⟩
    simp at hx ⊢
    rcases hx with h | h <;> simp [h]
  | decimal ht1 ht2 ht3 =>
    cases s with
    | nil => exact (ht1 rfl).elim
    | cons c t =>
      have hc := ht2 c List.mem_cons_self
      have h1 := (lexeme_decimal hc (t := t ++ d :: u) h').1
      have h2 : ∀ x ∈ c :: t ++ [d], Decimal x := by
        intro x hx
        rcases List.mem_append.1 hx with hx | hx
        · exact ht2 x hx
        · exact h1 x (by simp at hx ⊢; exact .inr (.inl hx))
      by_cases hv : positional 10 (c :: t ++ [d]) ≤ 4095
      · exact ⟨_, .decimal (by simp) h2 hv⟩
      · exact ⟨_, .decimalRange (by simp) h2 (by omega)⟩
  | decimalRange ht1 ht2 ht3 =>
    cases s with
    | nil => exact (ht1 rfl).elim
    | cons c t =>
      have hc := ht2 c List.mem_cons_self
      have h1 := (lexeme_decimal hc (t := t ++ d :: u) h').1
      have h2 : ∀ x ∈ c :: t ++ [d], Decimal x := by
        intro x hx
        rcases List.mem_append.1 hx with hx | hx
        · exact ht2 x hx
        · exact h1 x (by simp at hx ⊢; exact .inr (.inl hx))
      by_cases hv : positional 10 (c :: t ++ [d]) ≤ 4095
      · exact ⟨_, .decimal (by simp) h2 hv⟩
      · exact ⟨_, .decimalRange (by simp) h2 (by omega)⟩
  | @binary t ht1 ht2 ht3 =>
    have h1 := (lexeme_binary (t := t ++ d :: u) h').2.1
    have h2 : ∀ x ∈ t ++ [d], Binary x := fun x hx => h1 x (by simp at hx ⊢; rcases hx with h | h <;> simp [h])
    by_cases hv : bin (t ++ [d]) ≤ 4095
    · exact ⟨_, .binary (s := t ++ [d]) (by simp) h2 hv⟩
    · exact ⟨_, .binaryRange (s := t ++ [d]) (by simp) h2 (Nat.lt_of_not_le hv)⟩
  | @binaryRange t ht1 ht2 ht3 =>
    have h1 := (lexeme_binary (t := t ++ d :: u) h').2.1
    have h2 : ∀ x ∈ t ++ [d], Binary x := fun x hx => h1 x (by simp at hx ⊢; rcases hx with h | h <;> simp [h])
    by_cases hv : bin (t ++ [d]) ≤ 4095
    · exact ⟨_, .binary (s := t ++ [d]) (by simp) h2 hv⟩
    · exact ⟨_, .binaryRange (s := t ++ [d]) (by simp) h2 (Nat.lt_of_not_le hv)⟩

/-- A token is the longest when the next character does not continue it. -/
theorem longest_iff {s rest : Str} {k : Loc → Token} :
    Longest bin s rest k ↔ Lexeme bin s k ∧ ∀ d r, rest = d :: r → ¬ Joins bin s d := by
  constructor
  · intro h
    refine ⟨h.1, ?_⟩
    rintro d r rfl ⟨k', h'⟩
    have := h.2 (s ++ [d]) r k' (by simp) h'
    rw [List.length_append, List.length_singleton] at this
    omega
  · intro h
    exact longest_of_stop h.1 fun d r e u k' h' => h.2 d r e (joins_of_longer h.1 h')

theorem newline_joins {s : Str} {k : Loc → Token} (h : Lexeme bin s k) : ¬ Joins bin s '\n' := by
  intro hj
  rcases joins_char h hj with ⟨_, _, h⟩ | ⟨_, h⟩
  · exact h rfl
  · exact absurd h (by decide)

theorem blank_not_name {d : Char} (h : Blank d) : ¬ (NameChar d ∨ d = '.') := by
  have : ∀ n ∈ whiteSpace, ∀ d : Char, d.toNat = n → ¬ (NameChar d ∨ d = '.') := by
    clear h d
    intro n hn d e
    have e2 : d.toNat ≠ 46 ∧ d.toNat ≠ 95 ∧ (d.toNat < 97 ∨ 122 < d.toNat) ∧ (d.toNat < 65 ∨ 90 < d.toNat) ∧ (d.toNat < 48 ∨ 57 < d.toNat) := by
      rw [e]
      clear e
      clear d
      revert n
      decide
    rintro (((rfl | h | h) | h) | rfl)
    · exact e2.2.1 rfl
    · have h1 : 97 ≤ d.toNat := h.1
      have h2 : d.toNat ≤ 122 := h.2
      omega
    · have h1 : 65 ≤ d.toNat := h.1
      have h2 : d.toNat ≤ 90 := h.2
      omega
    · have h1 : 48 ≤ d.toNat := h.1
      have h2 : d.toNat ≤ 57 := h.2
      omega
    · exact e2.1 rfl
  exact this _ h.1 d rfl

/-! ### Cuts and tokens -/

theorem cut_of_lex {file before text : Str} {ts : List Token} (h : Lex bin file before text ts) (hn : NoLexError ts) :
    Cut bin text (ts.map bare) := by
  induction h with
  | done hb => exact .done hb
  | @token before blanks s rest k ts hb hL hE _ ih =>
    rw [List.map_cons, bare, lexeme_mapLoc hL.1]
    exact .token hb hL hE (ih fun e l hm => hn e l (List.mem_cons_of_mem _ hm))
  | outOfRange hb hL hE =>
    obtain ⟨e, rfl⟩ := hE
    exact (hn e _ List.mem_cons_self).elim
  | malformed => exact (hn _ _ List.mem_cons_self).elim

theorem lex_of_cut {text : Str} {ts : List Token} (h : Cut bin text ts) (file before : Str) :
    ∃ ts', Lex bin file before text ts' ∧ NoLexError ts' ∧ ts'.map bare = ts := by
  induction h generalizing before with
  | done hb => exact ⟨[], .done hb, by simp [NoLexError], rfl⟩
  | @token blanks s rest k ts hb hL hE _ ih =>
    obtain ⟨ts', h1, h2, h3⟩ := ih (before ++ blanks ++ s)
    refine ⟨_, .token hb hL hE h1, ?_, ?_⟩
    · intro e l hm
      rcases List.mem_cons.1 hm with hm | hm
      · refine hE ?_
        have hL := hL.1
        cases hL with
        | decimalRange => exact ⟨_, rfl⟩
        | binaryRange => exact ⟨_, rfl⟩
        | _ => cases hm
      · exact h2 e l hm
    · rw [List.map_cons, bare, lexeme_mapLoc hL.1]
      rw [bare] at h3
      rw [h3]
      rfl

theorem cut_unique {text : Str} {ts ts' : List Token} (h : Cut bin text ts) (h' : Cut bin text ts') : ts = ts' := by
  obtain ⟨a, h1, _, rfl⟩ := lex_of_cut h [] []
  obtain ⟨b, h2, _, rfl⟩ := lex_of_cut h' [] []
  rw [lex_unique h1 h2]

theorem cut_no_error {text : Str} {ts : List Token} (h : Cut bin text ts) : NoLexError ts := by
  obtain ⟨a, _, h1, rfl⟩ := lex_of_cut h [] []
  intro e l hm
  obtain ⟨t, ht, e2⟩ := List.mem_map.1 hm
  cases t <;> simp [bare, mapLoc] at e2
  obtain ⟨rfl, _⟩ := e2
  exact h1 _ _ ht

theorem lex_rename {file before text : Str} {ts : List Token} (h : Lex bin file before text ts) (file' : Str) :
    Lex bin file' before text (ts.map (mapLoc fun l => { l with fileName := file' })) := by
  induction h with
  | done hb => exact .done hb
  | token hb hL hE _ ih =>
    rw [List.map_cons, lexeme_mapLoc hL.1]
    exact .token hb hL hE ih
  | outOfRange hb hL hE =>
    rw [List.map_cons, lexeme_mapLoc hL.1]
    exact .outOfRange hb hL hE
  | malformed hb hc hn hM => exact .malformed hb hc hn hM

/-! ### Composition -/

theorem cut_blanks {blanks text : Str} {ts : List Token} (hb : ∀ c ∈ blanks, Blank c) (h : Cut bin text ts) :
    Cut bin (blanks ++ text) ts := by
  cases h with
  | done h =>
    exact .done (by
      intro c hc
      rcases List.mem_append.1 hc with hc | hc
      · exact hb c hc
      · exact h c hc)
  | @token blanks' s rest k ts hb' hL hE h =>
    rw [show blanks ++ (blanks' ++ s ++ rest) = (blanks ++ blanks') ++ s ++ rest by simp]
    refine .token ?_ hL hE h
    intro c hc
    rcases List.mem_append.1 hc with hc | hc
    · exact hb c hc
    · exact hb' c hc

theorem cut_cons {s rest : Str} {k : Loc → Token} {ts : List Token} (h : Lexeme bin s k) (hE : ¬ IsError k)
    (hj : ∀ d r, rest = d :: r → ¬ Joins bin s d) (hr : Cut bin rest ts) : Cut bin (s ++ rest) (k noLoc :: ts) := by
  have := Cut.token (blanks := []) (by simp) (longest_iff.2 ⟨h, hj⟩) hE hr
  simpa using this

/-- Text may be put after a text when its first character does not continue the last token. -/
theorem cut_append {a b : Str} {ts ts' : List Token} (h : Cut bin a ts) (h' : Cut bin b ts')
    (hj : ∀ d r s k, b = d :: r → Lexeme bin s k → ts.getLast? = some (k noLoc) → ¬ Joins bin s d) :
    Cut bin (a ++ b) (ts ++ ts') := by
  induction h with
  | done hb => exact cut_blanks hb h'
  | @token blanks s rest k ts hb hL hE hr ih =>
    have ih := ih (by
      intro d r s' k' e hs' hl
      refine hj d r s' k' e hs' ?_
      cases ts with
      | nil => simp at hl
      | cons t ts => rw [List.getLast?_cons_cons]; exact hl)
    rw [show blanks ++ s ++ rest ++ b = blanks ++ s ++ (rest ++ b) by simp]
    refine .token hb ?_ hE ih
    rw [longest_iff] at hL ⊢
    refine ⟨hL.1, ?_⟩
    intro d r e
    cases rest with
    | nil =>
      have : ts = [] := cut_unique hr (.done (by simp))
      subst this
      exact hj d r s k e hL.1 rfl
    | cons c rest =>
      cases e
      exact hL.2 d rest rfl

/-! ### What a text describes does not depend on locations -/

theorem program_bare {ts ts' : List Token} {ns : List Node} (e : ts.map bare = ts'.map bare) (h : Program ts ns) :
    ∃ ns', Program ts' ns' ∧ ns'.map bareNode = ns.map bareNode := by
  have h1 := parse_map nowhere ((parse_ok_iff _ _).2 h)
  obtain ⟨out, _, h2⟩ := outcome_exists ts'
  have h3 := parse_map nowhere h2
  rw [show ts.map (mapLoc nowhere) = ts'.map (mapLoc nowhere) from e, h3] at h1
  cases out with
  | error e => cases h1
  | ok ns' =>
    refine ⟨ns', (parse_ok_iff _ _).1 h2, ?_⟩
    simp only [parsedMap, Run.ret.injEq, Except.ok.injEq] at h1
    exact h1

end C8S
