import Verif.Proofs.Cut
import Verif.Proofs.Blanks
import Verif.Props.Parser

/- Texts with the same tokens. -/

namespace C8S

open Spec

variable {bin : Str → Nat}

/-- What a text describes, by its tokens without locations. -/
theorem describes_cut [Target] (file text : Str) (bytes : List (Nat × U8)) : Describes wordBinary file text bytes ↔
    ∃ ts ns ranges, Cut wordBinary text ts ∧ Program ts ns ∧ assemble ns = .ret (.ok ranges) ∧ bytes = image ranges := by
  rw [describes_iff]
  constructor
  · rintro ⟨ts, ns, ranges, hs, hp, ha, hb⟩
    have hc := cut_of_lex ((scan_iff_lex _ _ _).1 hs) (program_no_error ((parse_ok_iff _ _).1 hp))
    exact ⟨ts.map bare, ns.map bareNode, ranges, hc, (parse_ok_iff _ _).1 (parse_map nowhere hp), assemble_map nowhere ha, hb⟩
  · rintro ⟨ts, ns, ranges, hc, hp, ha, hb⟩
    obtain ⟨ts', hl, _, e⟩ := lex_of_cut hc file []
    have hb' : ts.map bare = ts'.map bare := by
      rw [← e, List.map_map]
      congr 1
      funext t
      cases t <;> rfl
    obtain ⟨ns', hp', e'⟩ := program_bare hb' hp
    refine ⟨ts', ns', ranges, (scan_iff_lex _ _ _).2 hl, (parse_ok_iff _ _).2 hp', ?_, hb⟩
    have h1 := assemble_run nowhere ns'
    have h2 := assemble_map nowhere ha
    rw [show ns'.map (nodeMap nowhere) = ns.map (nodeMap nowhere) from e', h2] at h1
    cases ha' : assemble ns' with
    | panic =>
      rw [ha'] at h1
      cases h1
    | ret out =>
      rw [ha'] at h1
      cases out with
      | error e => cases h1
      | ok r =>
        cases h1
        rfl

/-- Texts whose tokens are programs of the same statements describe the same. -/
theorem describes_same [Target] {file file' text text' : Str} {ts ts' : List Token} {bytes : List (Nat × U8)}
    (hc : Cut wordBinary text ts) (hc' : Cut wordBinary text' ts') (hp : ∀ ns, Program ts ns → Program ts' ns)
    (h : Describes wordBinary file text bytes) : Describes wordBinary file' text' bytes := by
  rw [describes_cut] at h ⊢
  obtain ⟨ts1, ns, ranges, h1, h2, h3, h4⟩ := h
  cases cut_unique h1 hc
  exact ⟨ts', ns, ranges, hc', hp ns h2, h3, h4⟩

theorem respaced_cut {text text' : Str} (h : Respaced bin text text') : ∃ ts, Cut bin text ts ∧ Cut bin text' ts := by
  induction h with
  | done h h' => exact ⟨[], .done h, .done h'⟩
  | @token blanks blanks' s rest rest' k hb hb' hL hE hj _ ih =>
    obtain ⟨ts, h1, h2⟩ := ih
    exact ⟨k noLoc :: ts, .token hb hL hE h1, .token hb' (longest_iff.2 ⟨hL.1, hj⟩) hE h2⟩

/-! ### Taking texts apart -/

theorem cut_inv {blanks s rest : Str} {k : Loc → Token} {ts : List Token} (hb : ∀ c ∈ blanks, Blank c)
    (hL : Longest bin s rest k) (h : Cut bin (blanks ++ s ++ rest) ts) : ∃ ts', ts = k noLoc :: ts' ∧ Cut bin rest ts' := by
  obtain ⟨c, r, rfl, hc⟩ := longest_head hL
  generalize e : blanks ++ c :: r ++ rest = text at h
  cases h with
  | done hb' => exact (blanks_no_token hb' (e.symm.trans (by rw [List.append_assoc, List.cons_append])) hc).elim
  | @token blanks' s' rest' k' ts hb' hL' hE h =>
    obtain ⟨c', r', rfl, hc'⟩ := longest_head hL'
    obtain ⟨_, e2⟩ := blank_split (r := r ++ rest) (r' := r' ++ rest') hb hb' hc hc' (by simpa using e)
    obtain ⟨_, rfl, rfl⟩ := longest_unique hL hL' e2
    exact ⟨ts, rfl, h⟩

theorem cut_unblank {blanks text : Str} {ts : List Token} (hb : ∀ c ∈ blanks, Blank c) (h : Cut bin (blanks ++ text) ts) :
    Cut bin text ts := by
  induction blanks with
  | nil => exact h
  | cons c blanks ih =>
    refine ih (fun x hx => hb x (List.mem_cons_of_mem _ hx)) ?_
    generalize e : c :: blanks ++ text = t at h
    cases h with
    | done h =>
      subst e
      exact .done fun x hx => h x (List.mem_cons_of_mem _ hx)
    | @token blanks' s rest k ts hb' hL hE h =>
      cases blanks' with
      | nil =>
        obtain ⟨c', r, rfl, hc⟩ := longest_head hL
        rw [List.cons_append, List.nil_append, List.cons_append, List.cons.injEq] at e
        rw [← e.1] at hc
        exact (hc (hb c List.mem_cons_self)).elim
      | cons c' blanks' =>
        rw [List.cons_append, List.cons_append, List.cons_append, List.cons.injEq] at e
        rw [e.2]
        exact .token (fun x hx => hb' x (List.mem_cons_of_mem _ hx)) hL hE h

theorem cut_split {a b : Str} {ta ts : List Token} (h : Cut bin a ta)
    (hj : ∀ d r s k, b = d :: r → Lexeme bin s k → ta.getLast? = some (k noLoc) → ¬ Joins bin s d)
    (h' : Cut bin (a ++ b) ts) : ∃ tb, ts = ta ++ tb ∧ Cut bin b tb := by
  induction h generalizing ts with
  | @done blanks hb =>
    exact ⟨ts, rfl, cut_unblank hb h'⟩
  | @token blanks s rest k ta hb hL hE hr ih =>
    have hL' : Longest bin s (rest ++ b) k := by
      rw [longest_iff] at hL ⊢
      refine ⟨hL.1, ?_⟩
      intro d r e
      cases rest with
      | nil =>
        have : ta = [] := cut_unique hr (.done (by simp))
        subst this
        exact hj d r s k e hL.1 rfl
      | cons c rest =>
        cases e
        exact hL.2 d rest rfl
    rw [show blanks ++ s ++ rest ++ b = blanks ++ s ++ (rest ++ b) by simp] at h'
    obtain ⟨ts', rfl, h2⟩ := cut_inv hb hL' h'
    obtain ⟨tb, rfl, h3⟩ := ih (by
      intro d r s' k' e hs' hl
      refine hj d r s' k' e hs' ?_
      cases ta with
      | nil => simp at hl
      | cons t ta => rw [List.getLast?_cons_cons]; exact hl) h2
    exact ⟨tb, rfl, h3⟩

/-! ### Comments at the end of a line -/

/-- A token that is not a comment is not continued by a blank nor by a semicolon. -/
theorem gap_joins {s : Str} {k : Loc → Token} {d : Char} (h : Lexeme bin s k) (hk : ¬ IsComment (k noLoc))
    (hd : Blank d ∨ d = ';') : ¬ Joins bin s d := by
  intro hj
  rcases joins_char h hj with ⟨t, rfl, _⟩ | ⟨_, h'⟩
  · exact hk ⟨_, _, by rw [(lexeme_comment h).2]⟩
  · rcases hd with hd | rfl
    · exact blank_not_name hd h'
    · exact absurd h' (by decide)

theorem cut_comment {a w c b : Str} {ta tb : List Token} (h : Cut bin a ta) (hw : ∀ x ∈ w, Blank x) (hc : '\n' ∉ c)
    (hr : ∀ d r, b = d :: r → d = '\n') (h' : Cut bin b tb) :
    ∃ t, Cut bin (a ++ (w ++ (';' :: c ++ b))) (t ++ tb) ∧
      (t = ta ++ [.singleLineComment (';' :: c) noLoc] ∨
        ∃ p x y, ta = p ++ [.singleLineComment x noLoc] ∧ t = p ++ [.singleLineComment y noLoc]) := by
  have hcom : Cut bin (w ++ (';' :: c ++ b)) (.singleLineComment (';' :: c) noLoc :: tb) :=
    cut_blanks hw (cut_cons (.comment hc) (error_not_at (by simp)) (by
      intro d r e
      rw [hr d r e]
      exact newline_joins (.comment hc)) h')
  induction h with
  | done hb => exact ⟨[.singleLineComment (';' :: c) noLoc], cut_blanks hb hcom, .inl rfl⟩
  | @token blanks s rest k ta hb hL hE hr' ih =>
    have hl := (longest_iff.1 hL).1
    have hstop := (longest_iff.1 hL).2
    rw [show blanks ++ s ++ rest ++ (w ++ (';' :: c ++ b)) = blanks ++ s ++ (rest ++ (w ++ (';' :: c ++ b))) by simp]
    cases ta with
    | nil =>
      have hrest : ∀ x ∈ rest, Blank x := by
        generalize e : ([] : List Token) = ts at hr'
        cases hr' with
        | done h => exact h
        | token => cases e
      by_cases hk : IsComment (k noLoc)
      · have hsemi : ∃ t, s = ';' :: t := by
          cases hl with
          | comment => exact ⟨_, rfl⟩
          | _ => obtain ⟨_, _, h⟩ := hk; cases h
        obtain ⟨t, rfl⟩ := hsemi
        obtain ⟨ht, rfl⟩ := lexeme_comment hl
        have : rest = [] := by
          cases rest with
          | nil => rfl
          | cons d r =>
            refine (hstop d r rfl ⟨_, .comment (s := t ++ [d]) ?_⟩).elim
            have := (hrest d List.mem_cons_self).2
            simp [ht, this.symm]
        subst this
        refine ⟨[.singleLineComment (';' :: (t ++ (w ++ ';' :: c))) noLoc], ?_, .inr ⟨[], _, _, rfl, rfl⟩⟩
        rw [show blanks ++ ';' :: t ++ ([] ++ (w ++ (';' :: c ++ b))) = blanks ++ (';' :: (t ++ (w ++ ';' :: c)) ++ b) by simp]
        have hn : '\n' ∉ t ++ (w ++ ';' :: c) := by
          have hw' : '\n' ∉ w := fun hm => (hw _ hm).2 rfl
          simp [ht, hw', hc]
        refine cut_blanks hb (cut_cons (.comment hn) (error_not_at (by simp)) ?_ h')
        intro d r e
        rw [hr d r e]
        exact newline_joins (.comment hn)
      · refine ⟨[k noLoc, .singleLineComment (';' :: c) noLoc], ?_, .inl rfl⟩
        refine .token hb (longest_iff.2 ⟨hl, ?_⟩) hE (cut_blanks hrest hcom)
        intro d r e
        refine gap_joins hl hk ?_
        cases rest with
        | cons x rest =>
          cases e
          exact .inl (hrest d List.mem_cons_self)
        | nil =>
          cases w with
          | cons x w =>
            cases e
            exact .inl (hw d List.mem_cons_self)
          | nil =>
            cases e
            exact .inr rfl
    | cons t1 ta =>
      obtain ⟨t, h1, h2⟩ := ih
      refine ⟨k noLoc :: t, .token hb (longest_iff.2 ⟨hl, ?_⟩) hE h1, ?_⟩
      · intro d r e
        cases rest with
        | nil => cases cut_unique hr' (.done (by simp))
        | cons x rest =>
          cases e
          exact hstop d rest rfl
      · rcases h2 with rfl | ⟨p, x, y, e1, rfl⟩
        · exact .inl rfl
        · exact .inr ⟨k noLoc :: p, x, y, by rw [e1]; rfl, rfl⟩

/-- The text of a comment does not matter. -/
theorem program_comment {p b : List Token} {x y : Token} {ns : List Node} (hx : IsComment x) (hy : IsComment y)
    (h : Program (p ++ x :: b) ns) : Program (p ++ y :: b) ns := by
  refine program_replace h (.inr hx) (z := y :: b) (fun ms h => ?_) rfl ?_
    (fun _ _ _ _ _ _ _ => ⟨y, b, rfl, .inr hy⟩)
  · have := (program_blanks (c := [x]) (b := b) (by
      intro t ht
      rw [List.mem_singleton.1 ht]
      exact .inr hx)).1 h
    exact .blank (.inr hy) this
  · intro p l' s l args xs _ _ hn
    obtain ⟨l, rfl⟩ := hn
    obtain ⟨_, _, h⟩ := hx
    cases h

/-! ### Locations and lists -/

theorem items_unbare {b : Bool} {ts : List Token} {xs : List Literal} (h : ItemList LiteralTok b (ts.map bare) xs) :
    ItemList LiteralTok b ts xs := by
  have hit : ∀ {t : Token} {x : Literal}, LiteralTok (bare t) x → LiteralTok t x := by
    intro t x h
    cases t <;> cases h <;> constructor
  generalize e : ts.map bare = ts' at h
  induction h generalizing ts with
  | empty =>
    cases List.map_eq_nil_iff.1 e
    exact .empty
  | one hx =>
    obtain ⟨t, rfl, rfl⟩ := List.map_eq_singleton_iff.1 e
    exact .one (hit hx)
  | more hx _ ih =>
    obtain ⟨t, r, rfl, rfl, e1⟩ := List.map_eq_cons_iff.1 e
    obtain ⟨t', r, rfl, e', e2⟩ := List.map_eq_cons_iff.1 e1
    cases t' <;> cases e'
    exact .more (hit hx) (ih e2)

theorem openDirective_unbare {ts : List Token} (h : OpenDirective (ts.map bare)) : OpenDirective ts := by
  obtain ⟨p, l', s, l, args, xs, e, hi⟩ := h
  obtain ⟨p', r, rfl, rfl, e3⟩ := List.map_eq_append_iff.1 e
  obtain ⟨t, r, rfl, e1, e4⟩ := List.map_eq_cons_iff.1 e3
  obtain ⟨t', r, rfl, e2, rfl⟩ := List.map_eq_cons_iff.1 e4
  cases t <;> cases e1
  cases t' <;> cases e2
  exact ⟨p', _, _, _, r, xs, rfl, items_unbare hi⟩

theorem cut_of_scan [Target] {file text : Str} {ts : List Token} (h : scan file text = .ret ts) (hn : NoLexError ts) :
    Cut wordBinary text (ts.map bare) :=
  cut_of_lex ((scan_iff_lex _ _ _).1 h) hn

/-- The cut of what a text describes. -/
theorem describes_tokens [Target] {file text : Str} {bytes : List (Nat × U8)} (h : Describes wordBinary file text bytes) :
    ∃ ts, Cut wordBinary text ts := by
  obtain ⟨ts, _, _, h, _⟩ := (describes_cut _ _ _).1 h
  exact ⟨ts, h⟩

theorem newline_apart {b : Str} {ta : List Token} (hb : ∀ d r, b = d :: r → d = '\n') :
    ∀ d r s k, b = d :: r → Lexeme bin s k → ta.getLast? = some (k noLoc) → ¬ Joins bin s d := by
  intro d r s k e hs _
  rw [hb d r e]
  exact newline_joins hs

/-- The last token of whole lines is a newline. -/
theorem cut_whole {text : Str} {ts : List Token} (h : Cut bin (text ++ ['\n']) ts) : ∃ p, ts = p ++ [.newline noLoc] := by
  generalize hx : text ++ ['\n'] = x at h
  induction h generalizing text with
  | @done blanks hb =>
    subst hx
    exact absurd (hb '\n' (by simp)) (by decide)
  | @token blanks s r k ts hb hL hE hr ih =>
    rcases List.eq_nil_or_concat r with rfl | ⟨r1, last, rfl⟩
    · rw [List.append_nil] at hx
      have hlast : (blanks ++ s).getLast? = some '\n' := by rw [← hx]; simp
      have hnl : '\n' ∈ s := by
        obtain ⟨c, s1, rfl, hc⟩ := longest_head hL
        have h1 : (c :: s1).getLast? = some '\n' := by
          rw [List.getLast?_append] at hlast
          simpa using hlast
        exact List.mem_of_getLast? h1
      have hs : s = ['\n'] := by
        rcases lexeme_newline_mem hL.1 hnl with h1 | ⟨b, rfl, hb'⟩
        · exact h1
        · rw [show blanks ++ '"' :: (b ++ ['"']) = (blanks ++ '"' :: b) ++ ['"'] by simp, List.getLast?_append] at hlast
          simp at hlast
      subst hs
      cases cut_unique hr (.done (by simp))
      rw [(lexeme_newline hL.1).2]
      exact ⟨[], rfl⟩
    · have e : text ++ ['\n'] = (blanks ++ s ++ r1) ++ [last] := by rw [hx]; simp
      obtain ⟨_, e2⟩ := List.append_inj' e rfl
      cases e2
      obtain ⟨p, rfl⟩ := ih (text := r1) (by simp)
      exact ⟨k noLoc :: p, rfl⟩

/-- After whole lines, any character may follow. -/
theorem whole_apart {a b : Str} {ta : List Token} (ha : WholeLines a) (h : Cut bin a ta) :
    ∀ d r s k, b = d :: r → Lexeme bin s k → ta.getLast? = some (k noLoc) → ¬ Joins bin s d := by
  intro d r s k _ hs hl
  rcases ha with rfl | ⟨t, rfl⟩
  · cases cut_unique h (.done (by simp))
    cases hl
  · obtain ⟨p, rfl⟩ := cut_whole h
    rw [List.getLast?_append] at hl
    simp only [List.getLast?_singleton, Option.some_or, Option.some.injEq] at hl
    cases hs <;> cases hl
    rintro ⟨k', h'⟩
    exact absurd (lexeme_newline (t := [d]) h').1 (by simp)

/-- Blank lines between lines. -/
theorem cut_lines {a lines b : Str} {ta tl tb : List Token} (ha : WholeLines a) (hl : WholeLines lines)
    (h1 : Cut bin a ta) (h2 : Cut bin lines tl) (h3 : Cut bin b tb) :
    Cut bin (a ++ (lines ++ b)) (ta ++ (tl ++ tb)) :=
  cut_append h1 (cut_append h2 h3 (whole_apart hl h2)) (whole_apart ha h1)

theorem program_lines {ta tl tb : List Token} {a : Str} {ns : List Node} (ha : WholeLines a) (h1 : Cut bin a ta)
    (hl : AllBlank tl) : Program (ta ++ (tl ++ tb)) ns ↔ Program (ta ++ tb) ns := by
  rcases ha with rfl | ⟨t, rfl⟩
  · cases cut_unique h1 (.done (by simp))
    exact program_blanks hl
  · obtain ⟨p, rfl⟩ := cut_whole h1
    have := program_after_newline (a := p) (b := tb) (c := tl) (t := .newline noLoc) (ns := ns) ⟨_, rfl⟩ hl
    simpa using this

/-! ### Open argument lists -/

theorem items_closed {a r : List Token} {xs ys : List Literal} (h : ItemList LiteralTok false a xs)
    (h' : ItemList LiteralTok true (a ++ r) ys) : ∃ l r', r = .comma l :: r' := by
  generalize hb : false = b at h
  induction h generalizing ys with
  | empty => cases hb
  | one hx =>
    generalize e : [_] ++ r = x at h'
    cases h' with
    | empty => cases e
    | more =>
      cases e
      exact ⟨_, _, rfl⟩
  | @more b t x l ts xs hx _ ih =>
    generalize e : t :: .comma l :: ts ++ r = y at h'
    cases h' with
    | empty => cases e
    | more _ h' =>
      cases e
      exact ih h' hb

theorem items_bool {b b' : Bool} {a : List Token} {xs ys : List Literal} (h : ItemList LiteralTok b a xs)
    (h' : ItemList LiteralTok b' a ys) : b = b' := by
  induction h generalizing ys with
  | empty => cases h'; rfl
  | one => cases h'; rfl
  | more _ _ ih =>
    cases h' with
    | more _ h' => exact ih h'

theorem items_no_marker {α : Type} {item : Token → α → Prop} (hitem : ∀ t x, item t x → ∀ l, t ≠ .directiveMarker l)
    {b : Bool} {ts : List Token} {xs : List α} (h : ItemList item b ts xs) (l : Loc) : .directiveMarker l ∉ ts := by
  induction h with
  | empty => simp
  | one hx =>
    intro hm
    exact hitem _ _ hx l (List.mem_singleton.1 hm).symm
  | more hx _ ih =>
    intro hm
    rcases List.mem_cons.1 hm with hm | hm
    · exact hitem _ _ hx l hm.symm
    · rcases List.mem_cons.1 hm with hm | hm
      · cases hm
      · exact ih hm

theorem split_marker {args ts p r : List Token} {l : Loc} (h : .directiveMarker l ∉ args)
    (e : args ++ ts = p ++ .directiveMarker l :: r) : ∃ p', p = args ++ p' ∧ ts = p' ++ .directiveMarker l :: r := by
  rcases List.append_eq_append_iff.1 e with ⟨p', h1, h2⟩ | ⟨c, h1, h2⟩
  · exact ⟨p', h1, h2⟩
  · cases c with
    | nil => exact ⟨[], by simpa using h1.symm, by simpa using h2.symm⟩
    | cons t c =>
      cases h2
      exact (h (by rw [h1]; simp)).elim

/-- What follows an open argument list is a newline. -/
theorem program_open {ts : List Token} {ns : List Node} (h : Program ts ns) {p b args : List Token} {l' l : Loc} {s : Str}
    {t : Token} {xs : List Literal} (e : ts = p ++ .directiveMarker l' :: .identifier s l :: (args ++ t :: b))
    (hi : ItemList LiteralTok true args xs) (ht : IsNewline t ∨ IsComment t) : IsNewline t := by
  induction h generalizing p with
  | empty => simp at e
  | @blank t' ts ns hb hp ih =>
    cases p with
    | nil =>
      cases e
      rcases hb with ⟨_, h⟩ | ⟨_, _, h⟩ <;> cases h
    | cons t'' p =>
      cases e
      exact ih rfl
  | label hp ih =>
    cases p with
    | nil => cases e
    | cons t1 p =>
      cases p with
      | nil => cases e
      | cons t2 p =>
        cases e
        exact ih rfl
  | @directive s1 l1 l1' isOpen args' ts xs' ns hi' ho hp ih =>
    cases p with
    | nil =>
      simp only [List.nil_append, List.cons.injEq] at e
      obtain ⟨a', rfl, rfl⟩ := split_list (items_no_blank literal_no_blank hi') ht e.2.2
      cases isOpen with
      | true =>
        obtain ⟨t', r, e', hn⟩ := ho rfl
        cases a' with
        | nil =>
          cases e'
          exact hn
        | cons t2 a' =>
          cases e'
          exact (items_no_blank literal_no_blank hi t' (by simp) (.inl hn)).elim
      | false =>
        obtain ⟨l2, r, e2⟩ : ∃ l r, a' = .comma l :: r := items_closed hi' hi
        subst e2
        generalize e3 : Token.comma l2 :: r ++ t :: b = q at hp
        cases hp with
        | empty => cases e3
        | blank hb =>
          cases e3
          rcases hb with ⟨_, h⟩ | ⟨_, _, h⟩ <;> cases h
        | label => cases e3
        | directive => cases e3
        | instruction => cases e3
    | cons t1 p =>
      cases p with
      | nil =>
        simp only [List.cons_append, List.nil_append, List.cons.injEq] at e
        cases e.2.1
      | cons t2 p =>
        simp only [List.cons_append, List.cons.injEq] at e
        obtain ⟨p', rfl, rfl⟩ := split_marker (items_no_marker (fun t x h l => by cases h <;> simp) hi' l') e.2.2
        exact ih rfl
  | @instruction s1 l1 isOpen args' ts fs ns hi' ho hp ih =>
    cases p with
    | nil => cases e
    | cons t1 p =>
      simp only [List.cons_append, List.cons.injEq] at e
      obtain ⟨p', rfl, rfl⟩ := split_marker (items_no_marker (fun t x h l => by cases h <;> simp) hi' l') e.2
      exact ih rfl

end C8S
