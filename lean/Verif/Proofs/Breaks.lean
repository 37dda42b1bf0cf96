import Verif.Spec.Breaks
import Verif.Proofs.ByLine
import Verif.Proofs.Edit
import Verif.Proofs.Packed
import Verif.Proofs.Comments

/- Lemmas for C119. -/

namespace C8S

open Spec Parser

theorem literal_not_blank : ∀ t x, LiteralTok t x → ¬ (IsNewline t ∨ IsComment t) := by
  intro t x h
  cases h <;> simp [IsNewline, IsComment]

theorem operand_not_blank : ∀ t x, OperandTok t x → ¬ (IsNewline t ∨ IsComment t) := by
  intro t x h
  cases h <;> simp [IsNewline, IsComment]

theorem waiting_nil : ¬ Waiting [] := by
  intro h
  generalize e : ([] : List Token) = a at h
  cases h <;> simp at e

/-- A final newline is only needed after an open list. -/
theorem program_last_newline {ts : List Token} {ns : List Node} (h : Program ts ns) {a : List Token} {t : Token} (ht : IsNewline t)
    (e : ts = a ++ [t]) : Program a ns ∨ Waiting a := by
  induction h generalizing a with
  | empty => simp at e
  | @blank x ts ns hb hp ih =>
    cases a with
    | nil =>
      cases e
      exact .inl hp
    | cons y a =>
      cases e
      rcases ih rfl with h | h
      · exact .inl (.blank hb h)
      · cases h with
        | directive h1 h2 => exact .inr (.directive (.blank hb h1) h2)
        | instruction h1 h2 => exact .inr (.instruction (.blank hb h1) h2)
  | @label s l l' ts ns hp ih =>
    obtain ⟨r, rfl⟩ := ht
    cases a with
    | nil => simp at e
    | cons y a =>
      cases a with
      | nil => simp at e
      | cons z a =>
        cases e
        rcases ih rfl with h | h
        · exact .inl (.label h)
        · cases h with
          | directive h1 h2 => exact .inr (.directive (.label h1) h2)
          | instruction h1 h2 => exact .inr (.instruction (.label h1) h2)
  | @directive s l l' isOpen args ts xs ns hi ho hp ih =>
    cases a with
    | nil =>
      obtain ⟨r, rfl⟩ := ht
      simp at e
    | cons y a =>
      cases a with
      | nil =>
        obtain ⟨r, rfl⟩ := ht
        simp at e
      | cons z a =>
        simp only [List.cons_append, List.cons.injEq] at e
        obtain ⟨rfl, rfl, e⟩ := e
        rcases List.eq_nil_or_concat ts with rfl | ⟨ts', u, rfl⟩
        · rw [List.append_nil] at e
          exact (items_no_blank literal_not_blank hi t (by rw [e]; simp) (.inl ht)).elim
        · rw [List.concat_eq_append, ← List.append_assoc] at e
          obtain ⟨rfl, e2⟩ := List.append_inj' e rfl
          cases e2
          rw [List.concat_eq_append] at ho ih
          cases ts' with
          | nil =>
            cases isOpen with
            | true =>
              rw [List.append_nil]
              exact .inr (.directive (p := []) .empty hi)
            | false =>
              rcases ih rfl with h | h
              · exact .inl (.directive hi (fun h => nomatch h) h)
              · exact (waiting_nil h).elim
          | cons v ts' =>
            have ho' : isOpen → ∃ t r, v :: ts' = t :: r ∧ IsNewline t := by
              intro hx
              obtain ⟨t, r, e, h⟩ := ho hx
              cases e
              exact ⟨v, ts', rfl, h⟩
            rcases ih rfl with h | h
            · exact .inl (.directive hi ho' h)
            · generalize hw : v :: ts' = w at h ho'
              cases h with
              | @directive p args' n s' l1 l2 xs' h1 h2 =>
                have := Waiting.directive (l := l1) (l' := l2) (s := s') (Program.directive (s := s) (l := l) (l' := l') hi (by
                  intro hx
                  obtain ⟨t, r, e, h⟩ := ho' hx
                  cases p with
                  | nil =>
                    obtain ⟨q, rfl⟩ := h
                    simp at e
                  | cons _ _ =>
                    cases e
                    exact ⟨_, _, rfl, h⟩) h1) h2
                exact .inr (by simpa using this)
              | @instruction p args' n s' l1 fs' h1 h2 =>
                have := Waiting.instruction (l := l1) (s := s') (Program.directive (s := s) (l := l) (l' := l') hi (by
                  intro hx
                  obtain ⟨t, r, e, h⟩ := ho' hx
                  cases p with
                  | nil =>
                    obtain ⟨q, rfl⟩ := h
                    simp at e
                  | cons _ _ =>
                    cases e
                    exact ⟨_, _, rfl, h⟩) h1) h2
                exact .inr (by simpa using this)
  | @instruction s l isOpen args ts fs ns hi ho hp ih =>
    cases a with
    | nil =>
      obtain ⟨r, rfl⟩ := ht
      simp at e
    | cons y a =>
      simp only [List.cons_append, List.cons.injEq] at e
      obtain ⟨rfl, e⟩ := e
      rcases List.eq_nil_or_concat ts with rfl | ⟨ts', u, rfl⟩
      · rw [List.append_nil] at e
        exact (items_no_blank operand_not_blank hi t (by rw [e]; simp) (.inl ht)).elim
      · rw [List.concat_eq_append, ← List.append_assoc] at e
        obtain ⟨rfl, e2⟩ := List.append_inj' e rfl
        cases e2
        rw [List.concat_eq_append] at ho ih
        cases ts' with
        | nil =>
          cases isOpen with
          | true =>
            rw [List.append_nil]
            exact .inr (.instruction (p := []) .empty hi)
          | false =>
            rcases ih rfl with h | h
            · exact .inl (.instruction hi (fun h => nomatch h) h)
            · exact (waiting_nil h).elim
        | cons v ts' =>
          have ho' : isOpen → ∃ t r, v :: ts' = t :: r ∧ (IsNewline t ∨ IsComment t) := by
            intro hx
            obtain ⟨t, r, e, h⟩ := ho hx
            cases e
            exact ⟨v, ts', rfl, h⟩
          rcases ih rfl with h | h
          · exact .inl (.instruction hi ho' h)
          · generalize hw : v :: ts' = w at h ho'
            have hp : ∀ {p q : List Token} {t : Token}, ¬ (IsNewline t ∨ IsComment t) → (isOpen → ∃ u r, p ++ t :: q = u :: r ∧
                (IsNewline u ∨ IsComment u)) → isOpen → ∃ u r, p = u :: r ∧ (IsNewline u ∨ IsComment u) := by
              intro p q t hn h hx
              obtain ⟨u, r, e, hb⟩ := h hx
              cases p with
              | nil =>
                cases e
                exact (hn hb).elim
              | cons _ _ =>
                cases e
                exact ⟨_, _, rfl, hb⟩
            cases h with
            | @directive p args' n s' l1 l2 xs' h1 h2 =>
              have := Waiting.directive (l := l1) (l' := l2) (s := s') (Program.instruction (s := s) (l := l) hi
                (hp (by simp [IsNewline, IsComment]) ho') h1) h2
              exact .inr (by simpa using this)
            | @instruction p args' n s' l1 fs' h1 h2 =>
              have := Waiting.instruction (l := l1) (s := s') (Program.instruction (s := s) (l := l) hi
                (hp (by simp [IsNewline, IsComment]) ho') h1) h2
              exact .inr (by simpa using this)

/-- Whole statements, and then the outcome of what follows, unless it goes on with a comma. -/
theorem outcome_next {ts ts' : List Token} {ns : List Node} {out : Except ParseError (List Node)} (h : Program ts ns)
    (hc : ¬ StartsComma ts') (h' : ParseOutcome ts' out) : ParseOutcome (ts ++ ts') (out.map (ns ++ ·)) := by
  have hmap : ∀ (n : Node) (ns : List Node), out.map ((n :: ns) ++ ·) = (out.map (ns ++ ·)).map (n :: ·) := by
    intro n ns
    cases out <;> rfl
  have hcomma : ∀ {ts : List Token} {ns : List Node}, Program ts ns → ¬ StartsComma (ts ++ ts') := by
    intro ts ns hp
    cases ts with
    | nil => exact hc
    | cons u r =>
      rintro ⟨l, q, e⟩
      cases e
      exact (program_head hp).1 ⟨l, r, rfl⟩
  induction h with
  | empty => cases out <;> exact h'
  | @blank t ts ns hb hp ih => exact .blank ((isBlankTok_iff _).2 hb) ih
  | @label s l l' ts ns hp ih =>
    rw [hmap]
    exact .label ih
  | @directive s l l' isOpen args ts xs ns hi ho hp ih =>
    have hf : Follows litStop isOpen (ts ++ ts') := by
      cases isOpen with
      | false => exact hcomma hp
      | true =>
        obtain ⟨t, q, rfl, h4⟩ := ho rfl
        exact ⟨t, q ++ ts', rfl, (litStop_iff t).2 h4⟩
    rw [hmap, List.cons_append, List.cons_append, List.append_assoc]
    exact .directive (itemList_of lit_proper (ItemListCongr (fun t x => (litItem_iff t x).2) hi) hf) ih
  | @instruction s l isOpen args ts fs ns hi ho hp ih =>
    have hf : Follows fieldStop isOpen (ts ++ ts') := by
      cases isOpen with
      | false => exact hcomma hp
      | true =>
        obtain ⟨t, q, rfl, h4⟩ := ho rfl
        exact ⟨t, q ++ ts', rfl, (fieldStop_iff t).2 h4⟩
    have hm : ¬ StartsMarker (args ++ (ts ++ ts')) := by
      refine itemList_marker hi fun hx => ?_
      obtain ⟨t, q, rfl, h4⟩ := ho hx
      rintro ⟨l, r, e⟩
      cases e
      simp [IsNewline, IsComment] at h4
    rw [hmap, List.cons_append, List.append_assoc]
    exact .instruction hm (itemList_of field_proper (ItemListCongr (fun t x => (fieldItem_iff t x).2) hi) hf) ih

theorem itemList_open {α : Type} {item : Token → Option α} {stop : Token → Bool} {exp : List Str} (hp : Proper item stop)
    {args : List Token} {xs : List α} (h : ItemList (fun t x => item t = some x) true args xs) (rest : List Token) :
    itemList item stop exp (args ++ rest) = match itemList item stop exp rest with
      | .error e => .error e
      | .ok (ys, r) => .ok (xs ++ ys, r) := by
  generalize hb : true = b at h
  induction h with
  | empty =>
    rw [List.nil_append]
    cases itemList item stop exp rest <;> rfl
  | one _ => cases hb
  | @more b t x l ts xs hx _ ih =>
    rw [List.cons_append, List.cons_append, itemList.eq_def]
    simp only [hp.item_stop _ _ hx, Bool.false_eq_true, if_false, hx, ih hb]
    cases itemList item stop exp rest <;> rfl

theorem itemList_some {α : Type} {item : Token → Option α} {stop : Token → Bool} {exp : List Str} {t : Token}
    {r rest : List Token} {ys : List α} (hs : stop t = false) (h : itemList item stop exp (t :: r) = .ok (ys, rest)) : ys ≠ [] := by
  obtain ⟨b, used, e, hi, hf⟩ := itemList_ok _ (Nat.le_refl _) h
  rintro rfl
  cases hi
  obtain ⟨u, q, e', hu⟩ := hf
  rw [List.nil_append] at e
  rw [e'] at e
  cases e
  rw [hs] at hu
  cases hu

theorem newline_waiting {a : List Token} {t : Token} (h : Waiting a) (ht : IsNewline t) : ∃ n, Program (a ++ [t]) n := by
  have h0 : Program [t] [] := .blank (.inl ht) .empty
  cases h with
  | directive h1 h2 => exact ⟨_, by simpa using program_append h1 (.directive h2 (fun _ => ⟨t, [], rfl, ht⟩) h0)⟩
  | instruction h1 h2 => exact ⟨_, by simpa using program_append h1 (.instruction h2 (fun _ => ⟨t, [], rfl, .inl ht⟩) h0)⟩

/-- A token that begins a statement is taken for a part of an open list. -/
theorem waiting_join {a b : List Token} {t : Token} {n1 n2 : List Node} (h : Waiting a) (ht : IsNewline t) (hb : BeginsStatement b)
    (h1 : Program (a ++ [t]) n1) : ¬ Program (a ++ b) (n1 ++ n2) := by
  intro hp
  obtain ⟨u, r, rfl, hu⟩ := hb
  have hp := program_outcome hp
  have h0 : Program [t] [] := .blank (.inl ht) .empty
  cases h with
  | @directive p args n s l l' xs k1 k2 =>
    have e1 : n1 = n ++ [.directive l s xs] :=
      program_unique h1 (by simpa using program_append k1 (.directive k2 (fun _ => ⟨t, [], rfl, ht⟩) h0))
    have hlit := itemList_open (exp := litExp) lit_proper (ItemListCongr (fun t x => (litItem_iff t x).2) k2) (u :: r)
    have hstop : litStop u = false := by
      cases e : litStop u with
      | false => rfl
      | true => exact (hu (.inl ((litStop_iff u).1 e))).elim
    obtain ⟨out, ho, _⟩ := outcome_exists (.directiveMarker l' :: .identifier s l :: (args ++ u :: r))
    have hq := outcome_next k1 (by rintro ⟨_, _, e⟩; cases e) ho
    rw [List.append_assoc, List.cons_append, List.cons_append] at hp
    have hu := outcome_unique hp hq
    cases hi : itemList litItem litStop litExp (u :: r) with
    | error e =>
      rw [hi] at hlit
      cases outcome_unique ho (.directiveError hlit)
      cases hu
    | ok yr =>
      obtain ⟨ys, rest⟩ := yr
      rw [hi] at hlit
      obtain ⟨out', ho', _⟩ := outcome_exists rest
      cases outcome_unique ho (.directive hlit ho')
      cases out' with
      | error e => cases hu
      | ok ms =>
        simp only [Except.map, Except.ok.injEq, e1, List.append_assoc, List.append_cancel_left_eq, List.cons_append,
          List.cons.injEq, Node.directive.injEq] at hu
        have := congrArg List.length hu.1.2.2
        rw [List.length_append] at this
        exact itemList_some hstop hi (List.eq_nil_of_length_eq_zero (by omega))
  | @instruction p args n s l fs k1 k2 =>
    have e1 : n1 = n ++ [.instruction l s fs] :=
      program_unique h1 (by simpa using program_append k1 (.instruction k2 (fun _ => ⟨t, [], rfl, .inl ht⟩) h0))
    have hlit := itemList_open (exp := fieldExp) field_proper (ItemListCongr (fun t x => (fieldItem_iff t x).2) k2) (u :: r)
    have hstop : fieldStop u = false := by
      cases e : fieldStop u with
      | false => rfl
      | true => exact (hu ((fieldStop_iff u).1 e)).elim
    obtain ⟨out, ho, _⟩ := outcome_exists (.identifier s l :: (args ++ u :: r))
    have hq := outcome_next k1 (by rintro ⟨_, _, e⟩; cases e) ho
    rw [List.append_assoc, List.cons_append] at hp
    have hu := outcome_unique hp hq
    by_cases hm : StartsMarker (args ++ u :: r)
    · obtain ⟨l2, q, e⟩ := hm
      rw [e] at ho
      obtain ⟨out', ho', _⟩ := outcome_exists q
      cases outcome_unique ho (.label ho')
      cases out' with
      | error e => cases hu
      | ok ms =>
        simp [Except.map, e1] at hu
    · cases hi : itemList fieldItem fieldStop fieldExp (u :: r) with
      | error e =>
        rw [hi] at hlit
        cases outcome_unique ho (.instructionError hm hlit)
        cases hu
      | ok yr =>
        obtain ⟨ys, rest⟩ := yr
        rw [hi] at hlit
        obtain ⟨out', ho', _⟩ := outcome_exists rest
        cases outcome_unique ho (.instruction hm hlit ho')
        cases out' with
        | error e => cases hu
        | ok ms =>
          simp only [Except.map, Except.ok.injEq, e1, List.append_assoc, List.append_cancel_left_eq, List.cons_append,
            List.cons.injEq, Node.instruction.injEq] at hu
          have := congrArg List.length hu.1.2.2
          rw [List.length_append] at this
          exact itemList_some hstop hi (List.eq_nil_of_length_eq_zero (by omega))

/-- An open list cannot be the end of a program. -/
theorem waiting_end {a : List Token} {n : List Node} (h : Waiting a) : ¬ Program a n := by
  intro hp
  have hp := program_outcome hp
  cases h with
  | @directive p args m s l l' xs k1 k2 =>
    have hlit := itemList_open (exp := litExp) lit_proper (ItemListCongr (fun t x => (litItem_iff t x).2) k2) []
    rw [List.append_nil] at hlit
    have hq := outcome_next k1 (by rintro ⟨_, _, e⟩; cases e) (.directiveError (s := s) (l := l) (l' := l') hlit)
    cases outcome_unique hp hq
  | @instruction p args m s l fs k1 k2 =>
    have hlit := itemList_open (exp := fieldExp) field_proper (ItemListCongr (fun t x => (fieldItem_iff t x).2) k2) []
    rw [List.append_nil] at hlit
    have hm : ¬ StartsMarker args := by
      have := itemList_marker (ts := []) k2 fun _ => by simp [StartsMarker]
      rwa [List.append_nil] at this
    have hq := outcome_next k1 (by rintro ⟨_, _, e⟩; cases e) (.instructionError (s := s) (l := l) hm hlit)
    cases outcome_unique hp hq

theorem waiting_iff {a : List Token} {t : Token} {ns : List Node} (ht : IsNewline t) (h : Program (a ++ [t]) ns) :
    Waiting a ↔ ¬ ∃ n, Program a n := by
  constructor
  · rintro hw ⟨n, hn⟩
    exact waiting_end hw hn
  · intro hn
    rcases program_last_newline h ht rfl with h | h
    · exact (hn ⟨_, h⟩).elim
    · exact h

theorem program_bare_iff (ts : List Token) : (∃ n, Program (ts.map bare) n) ↔ ∃ n, Program ts n := by
  have e : (ts.map bare).map bare = ts.map bare := by
    rw [List.map_map]
    exact List.map_congr_left fun t _ => by cases t <;> rfl
  constructor
  · rintro ⟨n, h⟩
    obtain ⟨n', h', _⟩ := program_bare e h
    exact ⟨n', h'⟩
  · rintro ⟨n, h⟩
    obtain ⟨n', h', _⟩ := program_bare e.symm h
    exact ⟨n', h'⟩

theorem waiting_bare {ts : List Token} {t : Token} {ns : List Node} (ht : IsNewline t) (h : Program (ts.map bare ++ [t]) ns) :
    Waiting (ts.map bare) ↔ Waiting ts := by
  have e : (ts.map bare ++ [t]).map bare = (ts ++ [t]).map bare := by
    rw [List.map_append, List.map_append, List.map_map]
    congr 1
    exact List.map_congr_left fun t _ => by cases t <;> rfl
  obtain ⟨n', h', _⟩ := program_bare e h
  rw [waiting_iff ht h, waiting_iff ht h', program_bare_iff]

theorem cut_then_newline {bin : Str → Nat} {a b : Str} {ts ts' : List Token} (h : Cut bin a ts) (h' : Cut bin b ts') :
    Cut bin (a ++ '\n' :: b) (ts ++ .newline noLoc :: ts') := by
  refine cut_append h (.token (blanks := []) (s := ['\n']) (k := .newline) (by simp) (longest_newline _) not_error_newline h') ?_
  intro d r s k e hs _
  cases e
  rw [joins_iff_runsOn hs]
  cases s with
  | nil => exact id
  | cons c t =>
    rintro (⟨_, h⟩ | ⟨_, h⟩ | ⟨_, h⟩ | ⟨_, _, h⟩ | ⟨_, h⟩)
    · exact h rfl
    all_goals exact absurd h (by decide)

theorem cut_then_space {bin : Str → Nat} {a b : Str} {ts ts' : List Token} (h : Cut bin a ts) (h' : Cut bin b ts')
    (hc : ¬ EndsInComment ts) : Cut bin (a ++ ' ' :: b) (ts ++ ts') := by
  refine cut_append h (cut_blanks (blanks := [' ']) (by decide) h') ?_
  intro d r s k e hs hl
  cases e
  rw [joins_iff_runsOn hs]
  cases s with
  | nil => exact id
  | cons c t =>
    rintro (⟨rfl, _⟩ | ⟨_, h⟩ | ⟨_, h⟩ | ⟨_, _, h⟩ | ⟨_, h⟩)
    · obtain ⟨_, rfl⟩ := lexeme_comment hs
      exact hc ⟨_, _, hl⟩
    all_goals exact absurd h (by decide)

theorem comment_bare {ts : List Token} (h : EndsInComment (ts.map bare)) : EndsInComment ts := by
  obtain ⟨s, l, h⟩ := h
  rw [List.getLast?_map] at h
  cases e : ts.getLast? with
  | none => rw [e] at h; cases h
  | some t =>
    rw [e] at h
    cases t <;> first | (cases h; done) | exact ⟨_, _, e⟩

/-- A text on its own, and a text after it. -/
theorem hasCut_space [Target] {a b : Str} {p q : List Node} {ta : List Token} (hs : Cut wordBinary a ta)
    (hp : Program ta (p.map bareNode)) (hc : ¬ EndsInComment ta) (h : HasCut b q) :
    HasCut (a ++ ' ' :: b) (p ++ q) ∧ HasCut (a ++ '\n' :: b) (p ++ q) := by
  obtain ⟨tb, c2, p2⟩ := h
  exact ⟨⟨_, cut_then_space hs c2 hc, by rw [List.map_append]; exact program_append hp p2⟩,
    ⟨_, cut_then_newline hs c2, by rw [List.map_append]; exact program_append hp (.blank (.inl ⟨_, rfl⟩) p2)⟩⟩

end C8S
