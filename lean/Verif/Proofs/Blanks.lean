import Verif.Proofs.Grammar

/- Newlines and comments between statements. -/

namespace C8S

open Spec

theorem program_append {a b : List Token} {ns ms : List Node} (ha : Program a ns) (hb : Program b ms) :
    Program (a ++ b) (ns ++ ms) := by
  induction ha with
  | empty => exact hb
  | blank h _ ih => exact .blank h ih
  | label _ ih => exact .label ih
  | directive hi ho _ ih =>
    rw [List.cons_append, List.cons_append, List.append_assoc]
    refine .directive hi ?_ ih
    intro h
    obtain ⟨t, r, rfl, hn⟩ := ho h
    exact ⟨t, r ++ b, rfl, hn⟩
  | instruction hi ho _ ih =>
    rw [List.cons_append, List.append_assoc]
    refine .instruction hi ?_ ih
    intro h
    obtain ⟨t, r, rfl, hn⟩ := ho h
    exact ⟨t, r ++ b, rfl, hn⟩

/-- Newlines and comments only. -/
def AllBlank (c : List Token) : Prop := ∀ t ∈ c, IsNewline t ∨ IsComment t

theorem program_blanks {c b : List Token} {ns : List Node} (hc : AllBlank c) : Program (c ++ b) ns ↔ Program b ns := by
  induction c with
  | nil => rfl
  | cons t c ih =>
    have ih := ih fun x hx => hc x (List.mem_cons_of_mem _ hx)
    have ht := hc t List.mem_cons_self
    constructor
    · intro h
      rw [List.cons_append] at h
      generalize c ++ b = q at h ih
      cases h with
      | blank _ h => exact ih.1 h
      | _ => rcases ht with ⟨l, h⟩ | ⟨s, l, h⟩ <;> cases h
    · intro h
      exact .blank ht (ih.2 h)

theorem items_no_blank {α : Type} {item : Token → α → Prop} (hitem : ∀ t x, item t x → ¬ (IsNewline t ∨ IsComment t))
    {b : Bool} {ts : List Token} {xs : List α} (h : ItemList item b ts xs) : ∀ t ∈ ts, ¬ (IsNewline t ∨ IsComment t) := by
  induction h with
  | empty => simp
  | one hx =>
    intro t ht
    simp only [List.mem_singleton] at ht
    subst ht
    exact hitem _ _ hx
  | more hx _ ih =>
    intro t ht
    simp only [List.mem_cons] at ht
    rcases ht with rfl | rfl | ht
    · exact hitem _ _ hx
    · simp [IsNewline, IsComment]
    · exact ih t ht

theorem literal_no_blank (t : Token) (x : Literal) (h : LiteralTok t x) : ¬ (IsNewline t ∨ IsComment t) := by
  cases h <;> simp [IsNewline, IsComment]

theorem operand_no_blank (t : Token) (x : Field) (h : OperandTok t x) : ¬ (IsNewline t ∨ IsComment t) := by
  cases h <;> simp [IsNewline, IsComment]

/-- A blank token after a list that has none stands in what follows the list. -/
theorem split_list {args ts a : List Token} {t : Token} {r : List Token} (h : ∀ x ∈ args, ¬ (IsNewline x ∨ IsComment x))
    (ht : IsNewline t ∨ IsComment t) (e : args ++ ts = a ++ t :: r) : ∃ a', a = args ++ a' ∧ ts = a' ++ t :: r := by
  rcases List.append_eq_append_iff.1 e with ⟨a', h1, h2⟩ | ⟨c, h1, h2⟩
  · exact ⟨a', h1, h2⟩
  · cases c with
    | nil => exact ⟨[], by simpa using h1.symm, by simpa using h2.symm⟩
    | cons x c =>
      simp only [List.cons_append, List.cons.injEq] at h2
      exact (h x (by rw [h1]; simp) (h2.1 ▸ ht)).elim

/-- Replacing what stands at a newline or comment. -/
theorem program_replace {x : List Token} {ns : List Node} (h : Program x ns) {t : Token} (ht : IsNewline t ∨ IsComment t)
    {y z : List Token} (hy : ∀ ms, Program (t :: y) ms → Program z ms)
    {a : List Token} (hx : x = a ++ t :: y)
    (hdir : ∀ p l' s l args xs, a = p ++ .directiveMarker l' :: .identifier s l :: args → ItemList LiteralTok true args xs →
      IsNewline t → ∃ t' r, z = t' :: r ∧ IsNewline t')
    (hins : ∀ p s l args fs, a = p ++ .identifier s l :: args → ItemList OperandTok true args fs →
      ∃ t' r, z = t' :: r ∧ (IsNewline t' ∨ IsComment t')) : Program (a ++ z) ns := by
  induction h generalizing a with
  | empty => simp at hx
  | @blank t' ts ns hb hp ih =>
    cases a with
    | nil =>
      simp only [List.nil_append, List.cons.injEq] at hx
      obtain ⟨rfl, rfl⟩ := hx
      exact hy _ (.blank ht hp)
    | cons t'' a =>
      simp only [List.cons_append, List.cons.injEq] at hx
      obtain ⟨rfl, rfl⟩ := hx
      refine .blank hb (ih rfl ?_ ?_)
      · rintro p l' s l args xs rfl h
        exact hdir (t' :: p) l' s l args xs rfl h
      · rintro p s l args fs rfl h
        exact hins (t' :: p) s l args fs rfl h
  | @label s l l' ts ns hp ih =>
    cases a with
    | nil =>
      simp only [List.nil_append, List.cons.injEq] at hx
      obtain ⟨rfl, _⟩ := hx
      simp [IsNewline, IsComment] at ht
    | cons t1 a =>
      cases a with
      | nil =>
        simp only [List.cons_append, List.nil_append, List.cons.injEq] at hx
        obtain ⟨_, rfl, _⟩ := hx
        simp [IsNewline, IsComment] at ht
      | cons t2 a =>
        simp only [List.cons_append, List.cons.injEq] at hx
        obtain ⟨rfl, rfl, rfl⟩ := hx
        refine .label (ih rfl ?_ ?_)
        · rintro p m' n m args xs rfl h
          exact hdir (_ :: _ :: p) m' n m args xs rfl h
        · rintro p n m args fs rfl h
          exact hins (_ :: _ :: p) n m args fs rfl h
  | @directive s l l' isOpen args ts xs ns hi ho hp ih =>
    cases a with
    | nil =>
      simp only [List.nil_append, List.cons.injEq] at hx
      obtain ⟨rfl, _⟩ := hx
      simp [IsNewline, IsComment] at ht
    | cons t1 a =>
      cases a with
      | nil =>
        simp only [List.cons_append, List.nil_append, List.cons.injEq] at hx
        obtain ⟨_, rfl, _⟩ := hx
        simp [IsNewline, IsComment] at ht
      | cons t2 a =>
        simp only [List.cons_append, List.cons.injEq] at hx
        obtain ⟨rfl, rfl, hx⟩ := hx
        obtain ⟨a', rfl, rfl⟩ := split_list (items_no_blank literal_no_blank hi) ht hx
        have hp' : Program (a' ++ z) ns := by
          refine ih rfl ?_ ?_
          · rintro p m' n m args' xs' rfl h
            exact hdir (.directiveMarker l' :: .identifier s l :: (args ++ p)) m' n m args' xs' (by simp) h
          · rintro p n m args' fs rfl h
            exact hins (.directiveMarker l' :: .identifier s l :: (args ++ p)) n m args' fs (by simp) h
        rw [List.cons_append, List.cons_append, List.append_assoc]
        refine .directive hi ?_ hp'
        intro hopen
        cases a' with
        | nil =>
          subst hopen
          refine hdir [] l' s l args xs (by simp) hi ?_
          obtain ⟨t', r, h1, h2⟩ := ho rfl
          cases h1
          exact h2
        | cons t3 a' =>
          obtain ⟨t', r, h1, h2⟩ := ho hopen
          simp only [List.cons_append, List.cons.injEq] at h1
          exact ⟨t', a' ++ z, by rw [h1.1]; rfl, h2⟩
  | @instruction s l isOpen args ts fs ns hi ho hp ih =>
    cases a with
    | nil =>
      simp only [List.nil_append, List.cons.injEq] at hx
      obtain ⟨rfl, _⟩ := hx
      simp [IsNewline, IsComment] at ht
    | cons t1 a =>
      simp only [List.cons_append, List.cons.injEq] at hx
      obtain ⟨rfl, hx⟩ := hx
      obtain ⟨a', rfl, rfl⟩ := split_list (items_no_blank operand_no_blank hi) ht hx
      have hp' : Program (a' ++ z) ns := by
        refine ih rfl ?_ ?_
        · rintro p m' n m args' xs' rfl h
          exact hdir (.identifier s l :: (args ++ p)) m' n m args' xs' (by simp) h
        · rintro p n m args' fs rfl h
          exact hins (.identifier s l :: (args ++ p)) n m args' fs (by simp) h
      rw [List.cons_append, List.append_assoc]
      refine .instruction hi ?_ hp'
      intro hopen
      cases a' with
      | nil =>
        subst hopen
        exact hins [] s l args fs (by simp) hi
      | cons t3 a' =>
        obtain ⟨t', r, h1, h2⟩ := ho hopen
        simp only [List.cons_append, List.cons.injEq] at h1
        exact ⟨t', a' ++ z, by rw [h1.1]; rfl, h2⟩

/-- Newlines and comments may be added and removed after a newline. -/
theorem program_after_newline {a b c : List Token} {t : Token} {ns : List Node} (ht : IsNewline t) (hc : AllBlank c) :
    Program (a ++ t :: (c ++ b)) ns ↔ Program (a ++ t :: b) ns := by
  constructor
  · intro h
    refine program_replace h (.inl ht) (z := t :: b) ?_ rfl (fun _ _ _ _ _ _ _ _ _ => ⟨t, b, rfl, ht⟩)
      (fun _ _ _ _ _ _ _ => ⟨t, b, rfl, .inl ht⟩)
    intro ms h
    have h1 := (program_blanks (c := t :: c) (b := b) (by
      intro x hx
      simp only [List.mem_cons] at hx
      rcases hx with rfl | hx
      · exact .inl ht
      · exact hc x hx)).1 h
    exact .blank (.inl ht) h1
  · intro h
    refine program_replace h (.inl ht) (z := t :: (c ++ b)) ?_ rfl (fun _ _ _ _ _ _ _ _ _ => ⟨t, c ++ b, rfl, ht⟩)
      (fun _ _ _ _ _ _ _ => ⟨t, c ++ b, rfl, .inl ht⟩)
    intro ms h
    have h1 := (program_blanks (c := [t]) (b := b) (by
      intro x hx
      simp only [List.mem_singleton] at hx
      subst hx
      exact .inl ht)).1 h
    exact .blank (.inl ht) ((program_blanks hc).2 h1)

/-- A comment may be removed before a newline. -/
theorem program_remove_comment {a b : List Token} {t c : Token} {ns : List Node} (ht : IsNewline t) (hc : IsComment c)
    (h : Program (a ++ c :: t :: b) ns) : Program (a ++ t :: b) ns := by
  refine program_replace h (.inr hc) (z := t :: b) ?_ rfl (fun _ _ _ _ _ _ _ _ _ => ⟨t, b, rfl, ht⟩)
    (fun _ _ _ _ _ _ _ => ⟨t, b, rfl, .inl ht⟩)
  intro ms h
  exact (program_blanks (c := [c]) (b := t :: b) (by
    intro x hx
    simp only [List.mem_singleton] at hx
    subst hx
    exact .inr hc)).1 h

/-- A comment may be added before a newline, except after a directive whose arguments are left open. -/
theorem program_add_comment {a b : List Token} {t c : Token} {ns : List Node} (ht : IsNewline t) (hc : IsComment c)
    (hopen : ¬ ∃ p l' s l args xs, a = p ++ .directiveMarker l' :: .identifier s l :: args ∧ ItemList LiteralTok true args xs)
    (h : Program (a ++ t :: b) ns) : Program (a ++ c :: t :: b) ns := by
  refine program_replace h (.inl ht) (z := c :: t :: b) (fun ms h => .blank (.inr hc) h) rfl ?_
    (fun _ _ _ _ _ _ _ => ⟨c, t :: b, rfl, .inr hc⟩)
  intro p l' s l args xs ha hi _
  exact (hopen ⟨p, l', s, l, args, xs, ha, hi⟩).elim

end C8S
