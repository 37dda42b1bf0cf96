import Verif.Proofs.Grammar

/- The parser on a program followed by other tokens. -/

namespace C8S

open Spec

theorem except_map_map {ε α : Type} (out : Except ε α) (f g : α → α) : (out.map f).map g = out.map (g ∘ f) := by
  cases out <;> rfl

theorem starts_append {p q : List Token} (h : ¬ StartsComma q) (h' : p ≠ [] → ¬ StartsComma p) : ¬ StartsComma (p ++ q) := by
  cases p with
  | nil => exact h
  | cons t p =>
    rintro ⟨l, r, e⟩
    cases e
    exact h' (by simp) ⟨l, p, rfl⟩

theorem startsMarker_append {p q : List Token} (h : ¬ StartsMarker q) (h' : ¬ StartsMarker p) : ¬ StartsMarker (p ++ q) := by
  cases p with
  | nil => exact h
  | cons t p =>
    rintro ⟨l, r, e⟩
    cases e
    exact h' ⟨l, p, rfl⟩

/-- After a program, other tokens are parsed as on their own. -/
theorem program_then {p q : List Token} {ns : List Node} {out : Except ParseError (List Node)} (h : Program p ns)
    (hq : ParseOutcome q out) (hc : ¬ StartsComma q) (hm : ¬ StartsMarker q) : ParseOutcome (p ++ q) (out.map (ns ++ ·)) := by
  induction h with
  | empty =>
    cases out <;> exact hq
  | blank hb _ ih => exact .blank ((isBlankTok_iff _).2 hb) ih
  | @label s l l' ts ns _ ih =>
    have := ParseOutcome.label (s := s) (l := l) (l' := l') ih
    rwa [except_map_map] at this
  | @directive s l l' isOpen args ts xs ns hi ho hp ih =>
    have h1 := ItemListCongr (fun t x => (litItem_iff t x).2) hi
    have hf : Follows litStop isOpen (ts ++ q) := by
      cases isOpen with
      | false => simpa [Follows] using starts_append hc (fun _ => (program_head hp).1)
      | true =>
        obtain ⟨t, r, h3, h4⟩ := ho rfl
        exact ⟨t, r ++ q, by rw [h3]; rfl, (litStop_iff t).2 h4⟩
    have := ParseOutcome.directive (s := s) (l := l) (l' := l') (itemList_of (exp := litExp) lit_proper h1 hf) ih
    rw [except_map_map] at this
    rw [List.cons_append, List.cons_append, List.append_assoc]
    exact this
  | @instruction s l isOpen args ts fs ns hi ho hp ih =>
    have h1 := ItemListCongr (fun t x => (fieldItem_iff t x).2) hi
    have hf : Follows fieldStop isOpen (ts ++ q) := by
      cases isOpen with
      | false => simpa [Follows] using starts_append hc (fun _ => (program_head hp).1)
      | true =>
        obtain ⟨t, r, h3, h4⟩ := ho rfl
        exact ⟨t, r ++ q, by rw [h3]; rfl, (fieldStop_iff t).2 h4⟩
    have := ParseOutcome.instruction (s := s) (l := l)
      (itemList_marker hi fun _ => startsMarker_append hm (program_head hp).2)
      (itemList_of (exp := fieldExp) field_proper h1 hf) ih
    rw [except_map_map] at this
    rw [List.cons_append, List.append_assoc]
    exact this

/-- A token that is no literal in the place of one. -/
theorem open_error {args : List Token} {b : Bool} {xs : List Literal} (hi : ItemList LiteralTok b args xs) (hb : b = true)
    {t : Token} (ht : ∀ x, ¬ LiteralTok t x) (hn : ¬ IsNewline t) (post : List Token) :
    itemList litItem litStop litExp (args ++ t :: post) = .error (.unexpectedToken litExp t) := by
  induction hi with
  | empty =>
    have h1 : litStop t = false := by
      cases h : litStop t with
      | false => rfl
      | true => exact absurd ((litStop_iff t).1 h) hn
    have h2 : litItem t = none := by
      cases h : litItem t with
      | none => rfl
      | some x => exact absurd ((litItem_iff t x).1 h) (ht x)
    rw [List.nil_append, itemList.eq_def]
    simp [h1, h2]
  | one _ => cases hb
  | @more b t' x l ts xs hx _ ih =>
    have hx' := (litItem_iff t' x).2 hx
    rw [List.cons_append, List.cons_append, itemList.eq_def]
    simp only [lit_proper.item_stop _ _ hx', Bool.false_eq_true, if_false, hx', ih hb]

end C8S
