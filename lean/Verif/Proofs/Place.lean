import Verif.Spec.Place
import Verif.Proofs.Cut

/- Lemmas on tokens in the middle of a line. -/

namespace C8S

open Spec

theorem lex_blanks {bin : Str → Nat} {file before blanks text : Str} {ts : List Token} (hb : ∀ c ∈ blanks, Blank c)
    (h : Lex bin file (before ++ blanks) text ts) : Lex bin file before (blanks ++ text) ts := by
  have app : ∀ {x y : Str}, (∀ c ∈ x, Blank c) → (∀ c ∈ y, Blank c) → ∀ c ∈ x ++ y, Blank c := by
    intro x y hx hy c hc
    rcases List.mem_append.1 hc with hc | hc
    · exact hx c hc
    · exact hy c hc
  cases h with
  | done h => exact .done (app hb h)
  | @token _ blanks' s rest k ts hb' hL hE h =>
    have := Spec.Lex.token (file := file) (before := before) (app hb hb') hL hE (by simpa using h)
    simpa using this
  | @outOfRange _ blanks' s rest k hb' hL hE =>
    have := Spec.Lex.outOfRange (file := file) (before := before) (app hb hb') hL hE
    simpa using this
  | @malformed _ blanks' rest c e hb' hc hno hM =>
    have := Spec.Lex.malformed (file := file) (before := before) (app hb hb') hc hno hM
    simpa using this

theorem lex_concat {bin : Str → Nat} {file before a b : Str} {ts ts' : List Token} (h : Lex bin file before a ts)
    (hn : NoLexError ts) (h' : Lex bin file (before ++ a) b ts')
    (hj : ∀ d r p s k l, b = d :: r → a = p ++ s → Lexeme bin s k → ts.getLast? = some (k l) → ¬ Joins bin s d) :
    Lex bin file before (a ++ b) (ts ++ ts') := by
  induction h with
  | done hb => exact lex_blanks hb h'
  | @token before blanks s rest k ts hb hL hE hr ih =>
    have ih := ih (fun e l hm => hn e l (List.mem_cons_of_mem _ hm)) (by simpa using h') (by
      intro d r p s' k' l e ea hs' hl
      refine hj d r (blanks ++ s ++ p) s' k' l e (by rw [ea]; simp) hs' ?_
      cases ts with
      | nil => simp at hl
      | cons t ts => rw [List.getLast?_cons_cons]; exact hl)
    rw [show blanks ++ s ++ rest ++ b = blanks ++ s ++ (rest ++ b) by simp]
    refine .token hb ?_ hE ih
    rw [longest_iff] at hL ⊢
    refine ⟨hL.1, ?_⟩
    intro d r e
    cases rest with
    | nil =>
      have : ts = [] := lex_unique hr (.done (by simp))
      subst this
      exact hj d r blanks s k _ e (by simp) hL.1 rfl
    | cons c rest =>
      cases e
      exact hL.2 d rest rfl
  | outOfRange hb hL hE =>
    obtain ⟨e, rfl⟩ := hE
    exact (hn e _ List.mem_cons_self).elim
  | malformed => exact (hn _ _ List.mem_cons_self).elim

theorem apart_comment {bin : Str → Nat} {ts : List Token} {s : Str} {k : Loc → Token} {l : Loc} (ha : Apart ts)
    (hs : Lexeme bin s k) (hl : ts.getLast? = some (k l)) : ¬ ∃ t, s = ';' :: t := by
  rintro ⟨t, rfl⟩
  obtain ⟨_, rfl⟩ := lexeme_comment hs
  exact ha.2 _ hl ⟨_, _, rfl⟩

/-- A token that does not begin with a letter, a digit, an underscore or a dot may follow at once. -/
theorem lex_here [Target] {file pre rest : Str} {ts ts' : List Token} (h : scan file pre = .ret ts) (ha : Apart ts)
    (hr : ∀ d r, rest = d :: r → ¬ (NameChar d ∨ d = '.')) (h' : Lex wordBinary file pre rest ts') :
    scan file (pre ++ rest) = .ret (ts ++ ts') := by
  rw [scan_iff_lex] at h ⊢
  refine lex_concat h ha.1 (by simpa using h') ?_
  intro d r p s k l e _ hs hl hj
  rcases joins_char hs hj with ⟨t, e', _⟩ | ⟨_, h⟩
  · exact apart_comment ha hs hl ⟨t, e'⟩
  · exact hr d r e h

theorem joins_word {bin : Str → Nat} {s u : Str} {c d : Char} {k : Loc → Token} (h : Lexeme bin s k) (hs : s = u ++ [c])
    (hj : Joins bin s d) : (∃ t, s = ';' :: t) ∨ NameChar c ∨ c = '.' := by
  obtain ⟨k', h'⟩ := hj
  have hm : ∀ {x : Char} {t : Str}, s = x :: t → t ≠ [] → c ∈ t := by
    intro x t e ht
    rw [hs] at e
    cases u with
    | nil => injection e with _ e; exact (ht e.symm).elim
    | cons y u => injection e with _ e; rw [← e]; simp
  have hc : c ∈ s := by rw [hs]; simp
  cases h with
  | newline => exact absurd (lexeme_newline h').1 (by simp)
  | comma => exact absurd (lexeme_comma h').1 (by simp)
  | labelMarker => exact absurd (lexeme_labelMarker h').1 (by simp)
  | directiveMarker => exact absurd (lexeme_directiveMarker h').1 (by simp)
  | comment _ => exact .inl ⟨_, rfl⟩
  | name h1 h2 =>
    rcases List.mem_cons.1 hc with rfl | hc
    · exact .inr (.inl (.inl h1))
    · exact .inr (.inl (h2 c hc))
  | indirect hc =>
    have := (lexeme_indirect h').1
    simp at this
  | @string t ht =>
    obtain ⟨b, e, hb, _⟩ := lexeme_string (t := t ++ ['"'] ++ [d]) h'
    have := stringBody_unique ht hb (r := [d]) (r' := []) (by rw [← e]; simp)
    subst this
    simp at e
  | hex _ h1 _ h2 =>
    have := h2 c (hm rfl h1)
    refine .inr (.inl ?_)
    rcases this with h | h | h
    · exact .inr h
    · exact .inl (.inr (.inl ⟨h.1, Char.le_trans h.2 (by decide)⟩))
    · exact .inl (.inr (.inr ⟨h.1, Char.le_trans h.2 (by decide)⟩))
  | decimal _ h2 _ => exact .inr (.inl (.inr (h2 c hc)))
  | decimalRange _ h2 _ => exact .inr (.inl (.inr (h2 c hc)))
  | binary h1 h2 _ =>
    rcases h2 c (hm rfl h1) with rfl | rfl | rfl
    · exact .inr (.inl (by decide))
    · exact .inr (.inr rfl)
    · exact .inr (.inl (by decide))
  | binaryRange h1 h2 _ =>
    rcases h2 c (hm rfl h1) with rfl | rfl | rfl
    · exact .inr (.inl (by decide))
    · exact .inr (.inr rfl)
    · exact .inr (.inl (by decide))

/-- Any token may follow a text that does not end with a letter, a digit, an underscore or a dot. -/
theorem lex_there [Target] {file pre rest : Str} {ts ts' : List Token} (h : scan file pre = .ret ts) (ha : Apart ts)
    (hw : ¬ EndsInWord pre) (h' : Lex wordBinary file pre rest ts') : scan file (pre ++ rest) = .ret (ts ++ ts') := by
  rw [scan_iff_lex] at h ⊢
  refine lex_concat h ha.1 (by simpa using h') ?_
  intro d r p s k l e ep hs hl hj
  rcases List.eq_nil_or_concat s with rfl | ⟨u, c, rfl⟩
  · exact lexeme_ne_nil hs rfl
  · rcases joins_word hs List.concat_eq_append hj with h | h
    · exact apart_comment ha hs hl h
    · exact hw ⟨p ++ u, c, by rw [ep, List.concat_eq_append, List.append_assoc], h⟩

theorem lex_ends_comment {bin : Str → Nat} {file before text : Str} {ts : List Token} (h : Lex bin file before text ts)
    (hn : NoLexError ts) {c : Str} {l : Loc} (hl : ts.getLast? = some (.singleLineComment c l)) :
    ∃ p t, text = p ++ ';' :: t ∧ '\n' ∉ t := by
  induction h with
  | done => simp at hl
  | @token before blanks s rest k ts hb hL hE hr ih =>
    cases ts with
    | nil =>
      have hk : k (locate file (before ++ blanks) s) = .singleLineComment c l := by simpa using hl
      have hc : ∃ t, s = ';' :: t ∧ '\n' ∉ t := by
        have h := hL.1
        cases h with
        | comment h => exact ⟨_, rfl, h⟩
        | _ => cases hk
      obtain ⟨t, rfl, ht⟩ := hc
      have hrb : ∀ c ∈ rest, Blank c := by
        generalize hx : before ++ blanks ++ ';' :: t = x at hr
        cases hr with
        | done h => exact h
      cases rest with
      | nil => exact ⟨blanks, t, by simp, ht⟩
      | cons d r =>
        refine ((longest_iff.1 hL).2 d r rfl ⟨_, .comment (s := t ++ [d]) ?_⟩).elim
        intro hm
        rcases List.mem_append.1 hm with hm | hm
        · exact ht hm
        · exact (hrb d List.mem_cons_self).2 (List.mem_singleton.1 hm).symm
    | cons t' ts =>
      rw [List.getLast?_cons_cons] at hl
      obtain ⟨p, t, e, ht⟩ := ih (fun e l hm => hn e l (List.mem_cons_of_mem _ hm)) hl
      exact ⟨blanks ++ s ++ p, t, by rw [e]; simp, ht⟩
  | outOfRange hb hL hE =>
    obtain ⟨e, rfl⟩ := hE
    exact (hn e _ List.mem_cons_self).elim
  | malformed => exact (hn _ _ List.mem_cons_self).elim

/-- Whole lines without an error are such a text. -/
theorem apart_lines [Target] {file pre : Str} {ts : List Token} (hp : WholeLines pre) (h : scan file pre = .ret ts)
    (hn : NoLexError ts) : Apart ts ∧ ¬ EndsInWord pre := by
  rcases hp with rfl | ⟨t, rfl⟩
  · rw [scan_iff_lex] at h
    cases lex_unique h (.done (by simp))
    exact ⟨⟨hn, by simp⟩, by rintro ⟨p, c, e, _⟩; simp at e⟩
  · refine ⟨⟨hn, ?_⟩, ?_⟩
    · rintro t' hl ⟨s, l, rfl⟩
      obtain ⟨p, u, e, hu⟩ := lex_ends_comment ((scan_iff_lex _ _ _).1 h) hn hl
      have := congrArg List.getLast? e
      rw [List.getLast?_append, List.getLast?_append] at this
      cases u with
      | nil => simp at this
      | cons x u =>
        rw [List.getLast?_cons_cons] at this
        have hm : (x :: u).getLast? = some '\n' := by simpa [List.getLast?_cons] using this.symm
        exact hu (List.mem_of_getLast? hm)
    · rintro ⟨p, c, e, hc⟩
      have : c = '\n' := by
        have := congrArg List.getLast? e
        simpa using this.symm
      subst this
      exact absurd hc (by decide)

end C8S
