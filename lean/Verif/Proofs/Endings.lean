import Verif.Spec.Endings
import Verif.Proofs.Cut
import Verif.Proofs.Tool

/- Tokens and statements of a text with carriage returns before its newlines. -/

namespace C8S

open Spec

/-! ### Text -/

theorem crlf_append (a b : Str) : crlf (a ++ b) = crlf a ++ crlf b := by
  induction a with
  | nil => rfl
  | cons c a ih =>
    by_cases hc : c = '\n'
    · simp [crlf, hc, ih]
    · simp [crlf, hc, ih]

theorem crlf_flat {s : Str} (h : '\n' ∉ s) : crlf s = s := by
  induction s with
  | nil => rfl
  | cons c s ih =>
    rw [List.mem_cons, not_or] at h
    rw [crlf, if_neg (fun e => h.1 e.symm), ih h.2]

theorem blank_return : Blank '\r' := by decide

theorem blanks_flat {s : Str} (h : ∀ c ∈ s, Blank c) : '\n' ∉ s := fun hm => (h _ hm).2 rfl

theorem crlf_prefix : ∀ (x s r : Str), s ++ r = crlf x → '\n' ∉ s →
    (∃ r', s ++ r' = x) ∨ ∃ u r', s = u ++ ['\r'] ∧ u ++ '\n' :: r' = x := by
  intro x
  induction x with
  | nil =>
    intro s r e _
    simp only [crlf, List.append_eq_nil_iff] at e
    exact .inl ⟨[], by simp [e.1]⟩
  | cons c x ih =>
    intro s r e hn
    cases s with
    | nil => exact .inl ⟨_, rfl⟩
    | cons d s =>
      rw [List.mem_cons, not_or] at hn
      by_cases hc : c = '\n'
      · subst hc
        rw [crlf, if_pos rfl, List.cons_append, List.cons.injEq] at e
        obtain ⟨rfl, e⟩ := e
        cases s with
        | nil => exact .inr ⟨[], x, rfl, rfl⟩
        | cons d' s =>
          rw [List.cons_append, List.cons.injEq] at e
          exact (hn.2 (by rw [e.1]; simp)).elim
      · rw [crlf, if_neg hc, List.cons_append, List.cons.injEq] at e
        obtain ⟨rfl, e⟩ := e
        rcases ih s r e hn.2 with ⟨r', rfl⟩ | ⟨u, r', rfl, rfl⟩
        · exact .inl ⟨r', rfl⟩
        · exact .inr ⟨d :: u, r', rfl, rfl⟩

theorem body_crlf {s : Str} (h : StringBody s) : StringBody (crlf s) := by
  induction h with
  | nil => exact .nil
  | @plain c s h1 h2 _ ih =>
    by_cases hc : c = '\n'
    · rw [crlf, if_pos hc]
      exact .plain (by decide) (by decide) (.plain (by decide) (by decide) ih)
    · rw [crlf, if_neg hc]
      exact .plain h1 h2 ih
  | @escape c s hc _ ih =>
    rw [crlf, if_neg (by decide), crlf, if_neg hc]
    exact .escape hc ih

theorem mem_crlf {s : Str} (h : '\n' ∈ s) : '\n' ∈ crlf s := by
  induction s with
  | nil => cases h
  | cons c s ih =>
    by_cases hc : c = '\n'
    · simp [crlf, hc]
    · rw [crlf, if_neg hc]
      rcases List.mem_cons.1 h with e | e
      · exact (hc e.symm).elim
      · exact List.mem_cons_of_mem _ (ih e)

variable {bin : Str → Nat}

theorem lexeme_return {u : Str} {k : Loc → Token} (h : Lexeme bin (u ++ ['\r']) k) : ∃ t, u ++ ['\r'] = ';' :: t := by
  have hm : '\r' ∈ u ++ ['\r'] := by simp
  have hl : (u ++ ['\r']).getLast? = some '\r' := by simp
  generalize u ++ ['\r'] = s at h hm hl
  cases h with
  | newline => simp at hm
  | comma => simp at hm
  | labelMarker => simp at hm
  | directiveMarker => simp at hm
  | comment _ => exact ⟨_, rfl⟩
  | name h1 h2 =>
    rcases List.mem_cons.1 hm with rfl | hm
    · exact absurd h1 (by decide)
    · exact absurd (h2 _ hm) (by decide)
  | indirect h =>
    rcases h with rfl | rfl <;> simp at hm
  | @string s _ =>
    rw [← List.cons_append, List.getLast?_append] at hl
    simp at hl
  | hex hc _ _ h2 =>
    rcases List.mem_cons.1 hm with rfl | hm
    · exact absurd hc (by decide)
    · exact absurd (h2 _ hm) (by decide)
  | decimal _ h _ => exact absurd (h _ hm) (by decide)
  | decimalRange _ h _ => exact absurd (h _ hm) (by decide)
  | binary _ h _ =>
    rcases List.mem_cons.1 hm with e | hm
    · exact absurd e (by decide)
    · exact absurd (h _ hm) (by decide)
  | binaryRange _ h _ =>
    rcases List.mem_cons.1 hm with e | hm
    · exact absurd e (by decide)
    · exact absurd (h _ hm) (by decide)

/-- A token that is no comment stays the longest one. -/
theorem longest_crlf {s rest : Str} {k : Loc → Token} (h : Longest bin s rest k)
    (hc : (∃ t, s = ';' :: t) → rest = []) : Longest bin s (crlf rest) k := by
  obtain ⟨h1, h2⟩ := longest_iff.1 h
  refine longest_iff.2 ⟨h1, ?_⟩
  intro d r e hj
  cases rest with
  | nil => cases e
  | cons c rest =>
    by_cases hn : c = '\n'
    · rw [crlf, if_pos hn] at e
      injection e with e _
      subst e
      rcases joins_char h1 hj with ⟨t, e, _⟩ | ⟨_, hd⟩
      · cases hc ⟨t, e⟩
      · exact blank_not_name blank_return hd
    · rw [crlf, if_neg hn] at e
      injection e with e _
      subst e
      exact h2 _ _ rfl hj

theorem locate_same {a b : Str} (h : Lower 0 a b) (file s : Str) : locate file b s = locate file a s := by
  rw [locate_lower h]
  rfl

/-- A blank may be counted to the text before. -/
theorem lex_shift {file before rest : Str} {c : Char} {ts : List Token} (hc : Blank c)
    (h : Lex bin file before (c :: rest) ts) : Lex bin file (before ++ [c]) rest ts := by
  generalize e : c :: rest = x at h
  cases h with
  | @done _ blanks hb =>
    subst e
    exact .done (fun d hd => hb d (List.mem_cons_of_mem _ hd))
  | @token _ blanks s rest' k ts hb hL hE hr =>
    cases blanks with
    | nil =>
      obtain ⟨d, t, hs⟩ : ∃ d t, s = d :: t := List.exists_cons_of_ne_nil (lexeme_ne_nil hL.1)
      subst hs
      injection e with e _
      subst e
      exact (lexeme_not_blank hL.1 hc).elim
    | cons d blanks =>
      injection e with e e'
      subst e e'
      have := Spec.Lex.token (file := file) (before := before ++ [c]) (blanks := blanks)
        (fun d hd => hb d (List.mem_cons_of_mem _ hd)) hL hE (by simpa using hr)
      simpa using this
  | @outOfRange _ blanks s rest' k hb hL hE =>
    cases blanks with
    | nil =>
      obtain ⟨d, t, hs⟩ : ∃ d t, s = d :: t := List.exists_cons_of_ne_nil (lexeme_ne_nil hL.1)
      subst hs
      injection e with e _
      subst e
      exact (lexeme_not_blank hL.1 hc).elim
    | cons d blanks =>
      injection e with e e'
      subst e e'
      have := Spec.Lex.outOfRange (file := file) (before := before ++ [c]) (blanks := blanks)
        (fun d hd => hb d (List.mem_cons_of_mem _ hd)) hL hE
      simpa using this
  | @malformed _ blanks rest' d er hb hd hn hM =>
    cases blanks with
    | nil =>
      injection e with e _
      subst e
      exact (hd hc).elim
    | cons d' blanks =>
      injection e with e e'
      subst e e'
      have := Spec.Lex.malformed (file := file) (before := before ++ [c]) (blanks := blanks)
        (fun d hd => hb d (List.mem_cons_of_mem _ hd)) hd hn hM
      simpa using this

/-! ### Tokens -/

/-- The same token, or two newlines, or two comments. -/
inductive Alike : Token → Token → Prop where
  | same {t : Token} : Alike t t
  | newline {l l' : Loc} : Alike (.newline l) (.newline l')
  | comment {s s' : Str} {l l' : Loc} : Alike (.singleLineComment s l) (.singleLineComment s' l')

inductive AlikeAll : List Token → List Token → Prop where
  | nil : AlikeAll [] []
  | cons {t t' : Token} {ts ts' : List Token} : Alike t t' → AlikeAll ts ts' → AlikeAll (t :: ts) (t' :: ts')

theorem broken_string {b : Str} {l : Loc} {ts : List Token} (h : '\n' ∈ b) :
    ¬ StringsOnOneLine (.stringLiteral b l :: ts) := fun hs => hs b l List.mem_cons_self h

theorem oneLine_tail {t : Token} {ts : List Token} (h : StringsOnOneLine (t :: ts)) : StringsOnOneLine ts :=
  fun s l hm => h s l (List.mem_cons_of_mem _ hm)

/-- There is a string over several lines, or an error. -/
def Spoilt (ts : List Token) : Prop := ¬ (StringsOnOneLine ts ∧ ∀ e l, .error e l ∉ ts)

theorem spoilt_cons {t : Token} {ts : List Token} (h : Spoilt ts) : Spoilt (t :: ts) :=
  fun h' => h ⟨oneLine_tail h'.1, fun e l hm => h'.2 e l (List.mem_cons_of_mem _ hm)⟩

/-- The tokens of the text with carriage returns. -/
theorem lex_crlf [Target] {file before text : Str} {ts : List Token} (h : Lex wordBinary file before text ts) :
    ∀ before', Lower 0 before before' → ∃ ts', Lex wordBinary file before' (crlf text) ts' ∧
      (AlikeAll ts ts' ∨ (¬ StringsOnOneLine ts' ∧ Spoilt ts)) := by
  induction h with
  | @done before blanks hb =>
    intro before' hl
    exact ⟨[], by rw [crlf_flat (blanks_flat hb)]; exact .done hb, .inl .nil⟩
  | @token before blanks s rest k ts hb hL hE _ ih =>
    intro before' hl
    have hl1 := hl.append blanks
    rw [crlf_append, crlf_append, crlf_flat (blanks_flat hb)]
    by_cases hn : '\n' ∈ s
    · rcases lexeme_newline_mem hL.1 hn with rfl | ⟨b, rfl, hB⟩
      · cases (lexeme_newline hL.1).2
        have hl2 : Lower 0 (before ++ blanks ++ ['\n']) (before' ++ (blanks ++ ['\r']) ++ ['\n']) := by
          refine ⟨by simp [sinceNewline_append]; rfl, ?_⟩
          have := hl.2
          simp only [newlines_append] at this ⊢
          rw [this]
          rfl
        obtain ⟨ts', h1, h2⟩ := ih _ hl2
        have hb' : ∀ c ∈ blanks ++ ['\r'], Blank c := by
          intro c hc
          rcases List.mem_append.1 hc with hc | hc
          · exact hb c hc
          · rw [List.mem_singleton.1 hc]; exact blank_return
        have hL' : Longest wordBinary ['\n'] (crlf rest) .newline :=
          longest_crlf hL (by rintro ⟨t, e⟩; injection e with e _; exact absurd e (by decide))
        refine ⟨_, by simpa [crlf] using Spec.Lex.token hb' hL' hE h1, ?_⟩
        rcases h2 with h2 | h2
        · exact .inl (.cons .newline h2)
        · exact .inr ⟨fun h => h2.1 (oneLine_tail h), spoilt_cons h2.2⟩
      · have hm : '\n' ∈ b := by simpa using hn
        have e : crlf ('"' :: (b ++ ['"'])) = '"' :: (crlf b ++ ['"']) := by
          rw [crlf, if_neg (by decide), crlf_append]
          rfl
        rw [e]
        obtain ⟨ts', h1⟩ := lex_exists file (before' ++ blanks ++ ('"' :: (crlf b ++ ['"']))) (crlf rest)
        refine ⟨_, .token hb (longest_string (body_crlf hB)) (error_not_at (by simp)) h1,
          .inr ⟨broken_string (mem_crlf hm), fun h => ?_⟩⟩
        rw [lexeme_unique hL.1 (.string hB)] at h
        exact broken_string hm h.1
    · rw [crlf_flat hn]
      by_cases hc : (∃ t, s = ';' :: t) → rest = []
      · obtain ⟨ts', h1, h2⟩ := ih _ (hl1.append s)
        refine ⟨_, .token hb (longest_crlf hL hc) hE h1, ?_⟩
        rw [locate_same hl1]
        rcases h2 with h2 | h2
        · exact .inl (.cons .same h2)
        · exact .inr ⟨fun h => h2.1 (oneLine_tail h), spoilt_cons h2.2⟩
      · have hc : (∃ t, s = ';' :: t) ∧ rest ≠ [] := by
          by_cases h : ∃ t, s = ';' :: t
          · exact ⟨h, fun h' => hc fun _ => h'⟩
          · exact (hc fun h' => (h h').elim).elim
        obtain ⟨⟨t, rfl⟩, hr⟩ := hc
        obtain ⟨d, r, rfl⟩ := List.exists_cons_of_ne_nil hr
        obtain ⟨ht, rfl⟩ := lexeme_comment hL.1
        have hd : d = '\n' := by
          by_cases hd : d = '\n'
          · exact hd
          · refine ((longest_iff.1 hL).2 d r rfl ⟨_, .comment (s := t ++ [d]) ?_⟩).elim
            intro hm
            rcases List.mem_append.1 hm with hm | hm
            · exact ht hm
            · exact hd (List.mem_singleton.1 hm).symm
        subst hd
        obtain ⟨ts', h1, h2⟩ := ih _ (hl1.append _)
        rw [crlf, if_pos rfl] at h1
        have h3 := lex_shift blank_return h1
        have hL' : Longest wordBinary (';' :: (t ++ ['\r'])) ('\n' :: crlf r) (.singleLineComment (';' :: (t ++ ['\r']))) :=
          longest_comment (by simp [ht]) (by intro d r e; injection e with e _; exact e.symm)
        have h4 := Spec.Lex.token hb hL' (error_not_at (by simp)) (by simpa using h3)
        refine ⟨_, by simpa [crlf] using h4, ?_⟩
        rcases h2 with h2 | h2
        · exact .inl (.cons .comment h2)
        · exact .inr ⟨fun h => h2.1 (oneLine_tail h), spoilt_cons h2.2⟩
  | @outOfRange before blanks s rest k hb hL hE =>
    intro before' hl
    rw [crlf_append, crlf_append, crlf_flat (blanks_flat hb)]
    have hn : '\n' ∉ s := by
      intro hn
      obtain ⟨e, rfl⟩ := hE
      rcases lexeme_newline_mem hL.1 hn with rfl | ⟨b, rfl, hB⟩
      · have := congrFun (lexeme_newline hL.1).2 noLoc
        cases this
      · obtain ⟨_, _, _, e⟩ := lexeme_string hL.1
        have := congrFun e noLoc
        cases this
    have hc : (∃ t, s = ';' :: t) → rest = [] := by
      rintro ⟨t, rfl⟩
      obtain ⟨e, rfl⟩ := hE
      have := congrFun (lexeme_comment hL.1).2 noLoc
      cases this
    rw [crlf_flat hn]
    refine ⟨_, .outOfRange hb (longest_crlf hL hc) hE, .inl ?_⟩
    rw [locate_same (hl.append blanks)]
    exact .cons .same .nil
  | @malformed before blanks rest c e hb hcb hno hM =>
    intro before' hl
    have hc : c ≠ '\n' := by
      rintro rfl
      exact hno ['\n'] rest _ rfl .newline
    rw [crlf_append, crlf_flat (blanks_flat hb), crlf, if_neg hc]
    by_cases hs : ∃ s r k, s ++ r = c :: crlf rest ∧ Lexeme wordBinary s k
    · obtain ⟨s, r, k, es, hs⟩ := hs
      by_cases hn : '\n' ∈ s
      · rcases lexeme_newline_mem hs hn with rfl | ⟨b, rfl, hB⟩
        · injection es with es _
          exact (hc es.symm).elim
        · have hm : '\n' ∈ b := by simpa using hn
          rw [← es, ← List.append_assoc]
          obtain ⟨ts', h1⟩ := lex_exists file (before' ++ blanks ++ ('"' :: (b ++ ['"']))) r
          exact ⟨_, .token hb (longest_string hB) (error_not_at (by simp)) h1,
            .inr ⟨broken_string hm, fun h => h.2 _ _ List.mem_cons_self⟩⟩
      · have es' : s ++ r = crlf (c :: rest) := by rw [es, crlf, if_neg hc]
        rcases crlf_prefix _ _ _ es' hn with ⟨r', e'⟩ | ⟨u, r', rfl, e'⟩
        · exact (hno _ _ _ e' hs).elim
        · obtain ⟨t, et⟩ := lexeme_return hs
          rw [et] at es
          injection es with es _
          exact (hno [';'] rest (.singleLineComment [';']) (by rw [es]; rfl) (.comment (by simp))).elim
    · refine ⟨_, .malformed hb hcb (fun s r k e h => hs ⟨s, r, k, e, h⟩) hM, .inl ?_⟩
      rw [locate_same (hl.append blanks)]
      exact .cons .same .nil

/-! ### Statements -/

theorem alikeAll_append {a b c : List Token} (h : AlikeAll (a ++ b) c) :
    ∃ a' b', c = a' ++ b' ∧ AlikeAll a a' ∧ AlikeAll b b' := by
  induction a generalizing c with
  | nil => exact ⟨[], c, rfl, .nil, h⟩
  | cons t a ih =>
    cases h with
    | cons h1 h2 =>
      obtain ⟨a', b', rfl, h3, h4⟩ := ih h2
      exact ⟨_ :: a', b', rfl, .cons h1 h3, h4⟩

theorem alikeAll_items {α : Type} {item : Token → α → Prop} (hi : ∀ t x, item t x → ¬ (IsNewline t ∨ IsComment t)) {b : Bool}
    {ts ts' : List Token} {xs : List α} (h : ItemList item b ts xs) (ha : AlikeAll ts ts') : ts' = ts := by
  have eq : ∀ {t t' : Token}, ¬ (IsNewline t ∨ IsComment t) → Alike t t' → t' = t := by
    intro t t' hn ha
    cases ha with
    | same => rfl
    | newline => exact (hn (.inl ⟨_, rfl⟩)).elim
    | comment => exact (hn (.inr ⟨_, _, rfl⟩)).elim
  induction h generalizing ts' with
  | empty => cases ha; rfl
  | one h =>
    cases ha with
    | cons h1 h2 =>
      cases h2
      rw [eq (hi _ _ h) h1]
  | more h _ ih =>
    cases ha with
    | cons h1 h2 =>
      cases h2 with
      | cons h2 h3 =>
        rw [eq (hi _ _ h) h1, ih h3]
        cases h2
        rfl

theorem program_alike {ts ts' : List Token} {ns : List Node} (h : Program ts ns) (ha : AlikeAll ts ts') : Program ts' ns := by
  have hlit : ∀ t x, LiteralTok t x → ¬ (IsNewline t ∨ IsComment t) := by
    rintro t x h (⟨l, rfl⟩ | ⟨s, l, rfl⟩) <;> cases h
  have hop : ∀ t x, OperandTok t x → ¬ (IsNewline t ∨ IsComment t) := by
    rintro t x h (⟨l, rfl⟩ | ⟨s, l, rfl⟩) <;> cases h
  induction h generalizing ts' with
  | empty => cases ha; exact .empty
  | blank hb _ ih =>
    cases ha with
    | cons h1 h2 =>
      refine .blank ?_ (ih h2)
      cases h1 with
      | same => exact hb
      | newline => exact .inl ⟨_, rfl⟩
      | comment => exact .inr ⟨_, _, rfl⟩
  | label _ ih =>
    cases ha with
    | cons h1 h2 =>
      cases h2 with
      | cons h2 h3 =>
        cases h1
        cases h2
        exact .label (ih h3)
  | directive hi ho _ ih =>
    cases ha with
    | cons h1 h2 =>
      cases h2 with
      | cons h2 h3 =>
        cases h1
        cases h2
        obtain ⟨a', b', rfl, h4, h5⟩ := alikeAll_append h3
        rw [alikeAll_items hlit hi h4]
        refine .directive hi (fun hb => ?_) (ih h5)
        obtain ⟨t, r, rfl, l, rfl⟩ := ho hb
        cases h5 with
        | cons h6 h7 =>
          refine ⟨_, _, rfl, ?_⟩
          cases h6 <;> exact ⟨_, rfl⟩
  | instruction hi ho _ ih =>
    cases ha with
    | cons h1 h2 =>
      cases h1
      obtain ⟨a', b', rfl, h4, h5⟩ := alikeAll_append h2
      rw [alikeAll_items hop hi h4]
      refine .instruction hi (fun hb => ?_) (ih h5)
      obtain ⟨t, r, rfl, hn⟩ := ho hb
      cases h5 with
      | cons h6 h7 =>
        refine ⟨_, _, rfl, ?_⟩
        cases h6 with
        | same => exact hn
        | newline => exact .inl ⟨_, rfl⟩
        | comment => exact .inr ⟨_, _, rfl⟩

theorem alike_symm {t t' : Token} (h : Alike t t') : Alike t' t := by
  cases h <;> constructor

theorem alikeAll_symm {ts ts' : List Token} (h : AlikeAll ts ts') : AlikeAll ts' ts := by
  induction h with
  | nil => exact .nil
  | cons h _ ih => exact .cons (alike_symm h) ih

theorem alikeAll_strings {ts ts' : List Token} (h : AlikeAll ts ts') (hs : StringsOnOneLine ts) : StringsOnOneLine ts' := by
  induction h with
  | nil => exact hs
  | cons h _ ih =>
    intro s l hm
    rcases List.mem_cons.1 hm with rfl | hm
    · cases h
      exact hs s l List.mem_cons_self
    · exact ih (oneLine_tail hs) s l hm

end C8S
