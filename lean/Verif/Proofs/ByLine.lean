import Verif.Spec.ByLine
import Verif.Proofs.Stable
import Verif.Proofs.Locations

/- Lemmas for C109. -/

namespace C8S

open Spec

theorem items_last {α : Type} {item : Token → α → Prop} (hi : ∀ t x, item t x → ¬ IsNewline t) {b : Bool} {ts : List Token}
    {xs : List α} (h : ItemList item b ts xs) : ∀ t ∈ ts, ¬ IsNewline t := by
  induction h with
  | empty => simp
  | one hx =>
    intro t ht
    cases List.mem_singleton.1 ht
    exact hi _ _ hx
  | more hx _ ih =>
    intro t ht
    rcases List.mem_cons.1 ht with rfl | ht
    · exact hi _ _ hx
    · rcases List.mem_cons.1 ht with rfl | ht
      · rintro ⟨l, h⟩
        cases h
      · exact ih t ht

/-- The last token, if there is one, is a newline. -/
def EndsLine (ts : List Token) : Prop := ∀ t, ts.getLast? = some t → IsNewline t

theorem endsLine_drop {used ts : List Token} (h : EndsLine (used ++ ts)) (hu : used ≠ [])
    (hn : ∀ t ∈ used, ¬ IsNewline t) : EndsLine ts ∧ ts ≠ [] := by
  have hne : ts ≠ [] := by
    rintro rfl
    rw [List.append_nil] at h
    have := h _ (List.getLast?_eq_some_getLast hu)
    exact hn _ (List.getLast_mem hu) this
  refine ⟨fun t ht => h t ?_, hne⟩
  rw [List.getLast?_append, ht]
  rfl

/-- The statements of whole lines, and then the outcome of what follows. -/
theorem outcome_after {ts ts' : List Token} {ns : List Node} {out : Except ParseError (List Node)} (h : Program ts ns)
    (he : EndsLine ts) (h' : ParseOutcome ts' out) : ParseOutcome (ts ++ ts') (out.map (ns ++ ·)) := by
  have hmap : ∀ (n : Node) (ns : List Node), out.map ((n :: ns) ++ ·) = (out.map (ns ++ ·)).map (n :: ·) := by
    intro n ns
    cases out <;> rfl
  induction h with
  | empty =>
    cases out <;> exact h'
  | @blank t ts ns hb hp ih =>
    refine .blank ((isBlankTok_iff _).2 hb) (ih ?_)
    intro u hu
    refine he u ?_
    rw [List.getLast?_cons, hu]
    rfl
  | @label s l l' ts ns hp ih =>
    rw [hmap]
    refine .label (ih ?_)
    exact (endsLine_drop (used := [.identifier s l, .labelMarker l']) he (by simp) (by simp [IsNewline])).1
  | @directive s l l' isOpen args ts xs ns hi ho hp ih =>
    have hlast := items_last (fun t x hx => by cases hx <;> simp [IsNewline]) hi
    obtain ⟨h1, hne⟩ := endsLine_drop (used := .directiveMarker l' :: .identifier s l :: args) (ts := ts) he (by simp) (by
      intro t ht
      simp only [List.mem_cons] at ht
      rcases ht with rfl | rfl | ht
      · simp [IsNewline]
      · simp [IsNewline]
      · exact hlast t ht)
    obtain ⟨u, r, rfl⟩ : ∃ u r, ts = u :: r := by
      cases ts with
      | nil => exact absurd rfl hne
      | cons u r => exact ⟨u, r, rfl⟩
    have hf : Follows litStop isOpen (u :: r ++ ts') := by
      cases isOpen with
      | false =>
        rintro ⟨l, q, e⟩
        cases e
        exact (program_head hp).1 ⟨l, r, rfl⟩
      | true =>
        obtain ⟨t, q, h3, h4⟩ := ho rfl
        cases h3
        exact ⟨u, r ++ ts', rfl, (litStop_iff u).2 h4⟩
    rw [hmap, List.cons_append, List.cons_append, List.append_assoc]
    exact .directive (itemList_of lit_proper (ItemListCongr (fun t x => (litItem_iff t x).2) hi) hf) (ih h1)
  | @instruction s l isOpen args ts fs ns hi ho hp ih =>
    have hlast := items_last (fun t x hx => by cases hx <;> simp [IsNewline]) hi
    obtain ⟨h1, hne⟩ := endsLine_drop (used := .identifier s l :: args) (ts := ts) he (by simp) (by
      intro t ht
      simp only [List.mem_cons] at ht
      rcases ht with rfl | ht
      · simp [IsNewline]
      · exact hlast t ht)
    obtain ⟨u, r, rfl⟩ : ∃ u r, ts = u :: r := by
      cases ts with
      | nil => exact absurd rfl hne
      | cons u r => exact ⟨u, r, rfl⟩
    have hf : Follows fieldStop isOpen (u :: r ++ ts') := by
      cases isOpen with
      | false =>
        rintro ⟨l, q, e⟩
        cases e
        exact (program_head hp).1 ⟨l, r, rfl⟩
      | true =>
        obtain ⟨t, q, h3, h4⟩ := ho rfl
        cases h3
        exact ⟨u, r ++ ts', rfl, (fieldStop_iff u).2 h4⟩
    have hm : ¬ StartsMarker (args ++ (u :: r ++ ts')) := by
      refine itemList_marker hi fun _ => ?_
      have := (program_head hp).2
      intro hx
      apply this
      cases u <;> simp_all [StartsMarker]
    rw [hmap, List.cons_append, List.append_assoc]
    exact .instruction hm (itemList_of field_proper (ItemListCongr (fun t x => (fieldItem_iff t x).2) hi) hf) (ih h1)

theorem scan_endsLine [Target] {file a : Str} {tokens : List Token} (ha : WholeLines a) (h : scan file a = .ret tokens)
    (hn : NoLexError tokens) : EndsLine tokens := by
  rcases ha with rfl | ⟨t, rfl⟩
  · cases lex_unique ((scan_iff_lex _ _ _).1 h) (.done (by simp))
    intro t ht
    cases ht
  · obtain ⟨p, l, rfl⟩ := lex_newline_last ((scan_iff_lex _ _ _).1 h) hn
    intro t ht
    rw [List.getLast?_append] at ht
    cases ht
    exact ⟨l, rfl⟩

theorem syntax_exists [Target] (file text : Str) : ∃ out, SyntaxOf file text out := by
  obtain ⟨tokens, hs, _⟩ := scan_lex file text
  obtain ⟨out, _, hp⟩ := outcome_exists tokens
  exact ⟨out, tokens, hs, hp⟩

theorem syntax_unique [Target] {file text : Str} {out out' : Except ParseError (List Node)} (h : SyntaxOf file text out)
    (h' : SyntaxOf file text out') : out = out' := by
  obtain ⟨t, h1, h2⟩ := h
  obtain ⟨t', h1', h2'⟩ := h'
  cases h1.symm.trans h1'
  cases h2.symm.trans h2'
  rfl

theorem syntax_after [Target] {file a b : Str} {p : List Node} {out : Except ParseError (List Node)} (ha : WholeLines a)
    (h : SyntaxOf file a (.ok p)) (h' : SyntaxOf file b out) :
    SyntaxOf file (a ++ b) ((parsedMap (further (newlines a)) out).map (p ++ ·)) := by
  obtain ⟨ts, hs, hp⟩ := h
  obtain ⟨ts', hs', hp'⟩ := h'
  have hpr := (parse_ok_iff _ _).1 hp
  have hn := program_no_error hpr
  refine ⟨_, scan_lines ha hs hn hs', ?_⟩
  rw [parse_iff]
  exact outcome_after hpr (scan_endsLine ha hs hn) ((parse_iff _ _).1 (parse_map (further (newlines a)) hp'))

end C8S
