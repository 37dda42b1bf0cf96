import Verif.Proofs.Compose
import Verif.Proofs.Blanks

/- Where a numeric literal stands in a program. -/

namespace C8S

open Spec

/-- A list divided at an item: what is before it is an open list, and another item may stand in its place. -/
theorem item_split {α : Type} {item : Token → α → Prop} {b : Bool} {ts : List Token} {xs : List α} (h : ItemList item b ts xs)
    {pre post : List Token} {t : Token} (e : ts = pre ++ t :: post) (ht : ∀ l, t ≠ .comma l) :
    ∃ ys z zs, xs = ys ++ z :: zs ∧ item t z ∧ ItemList item true pre ys ∧
      ∀ t' z', item t' z' → ItemList item b (pre ++ t' :: post) (ys ++ z' :: zs) := by
  induction h generalizing pre with
  | empty => simp at e
  | @one t1 x hx =>
    cases pre with
    | nil =>
      cases e
      exact ⟨[], x, [], rfl, hx, .empty, fun _ _ h => .one h⟩
    | cons t2 pre => simp at e
  | @more b t1 x l ts xs hx hi ih =>
    cases pre with
    | nil =>
      cases e
      exact ⟨[], x, xs, rfl, hx, .empty, fun _ _ h => .more h hi⟩
    | cons t2 pre =>
      cases pre with
      | nil =>
        cases e
        exact (ht l rfl).elim
      | cons t3 pre =>
        cases e
        obtain ⟨ys, z, zs, rfl, h1, h2, h3⟩ := ih rfl
        exact ⟨x :: ys, z, zs, rfl, h1, .more hx h2, fun t' z' h => .more hx (h3 t' z' h)⟩

/-- A token of a list and what follows it is in the list or after it. -/
theorem split_token {args ts a r : List Token} {t : Token} (e : args ++ ts = a ++ t :: r) :
    (∃ a', a = args ++ a' ∧ ts = a' ++ t :: r) ∨ ∃ c, args = a ++ t :: c ∧ r = c ++ ts := by
  rcases List.append_eq_append_iff.1 e with ⟨a', h1, h2⟩ | ⟨c, h1, h2⟩
  · exact .inl ⟨a', h1, h2⟩
  · cases c with
    | nil => exact .inl ⟨[], by simpa using h1.symm, by simpa using h2.symm⟩
    | cons x c =>
      cases h2
      exact .inr ⟨c, h1, rfl⟩

/-- A numeric literal of a program is an argument of a directive or an operand of an instruction. -/
theorem numeral_place {ts : List Token} {ns : List Node} (h : Program ts ns) {pre post : List Token} {n : Nat} {l : Loc}
    (e : ts = pre ++ .numericLiteral n l :: post) :
    (∃ p ns' l1 d l2 args xs, Program p ns' ∧ pre = p ++ .directiveMarker l1 :: .identifier d l2 :: args ∧
      ItemList LiteralTok true args xs) ∨
    ∃ ns1 l1 m fs w gs ns2, ns = ns1 ++ .instruction l1 m (fs ++ .numericLiteral w :: gs) :: ns2 ∧ w.toNat = n % 4096 ∧
      ∀ t f, OperandTok t f → Program (pre ++ t :: post) (ns1 ++ .instruction l1 m (fs ++ f :: gs) :: ns2) := by
  induction h generalizing pre with
  | empty => simp at e
  | @blank t ts ns hb hp ih =>
    cases pre with
    | nil =>
      cases e
      rcases hb with ⟨_, h⟩ | ⟨_, _, h⟩ <;> cases h
    | cons t1 pre =>
      cases e
      rcases ih rfl with ⟨p, ns', l1, d, l2, args, xs, h1, rfl, h3⟩ | ⟨ns1, l1, m, fs, w, gs, ns2, rfl, h2, h3⟩
      · exact .inl ⟨_ :: p, ns', l1, d, l2, args, xs, .blank hb h1, rfl, h3⟩
      · exact .inr ⟨ns1, l1, m, fs, w, gs, ns2, rfl, h2, fun t f h => .blank hb (h3 t f h)⟩
  | @label s l0 l' ts ns hp ih =>
    cases pre with
    | nil => cases e
    | cons t1 pre =>
      cases pre with
      | nil => cases e
      | cons t2 pre =>
        cases e
        rcases ih rfl with ⟨p, ns', l1, d, l2, args, xs, h1, rfl, h3⟩ | ⟨ns1, l1, m, fs, w, gs, ns2, rfl, h2, h3⟩
        · exact .inl ⟨_ :: _ :: p, _, l1, d, l2, args, xs, .label h1, rfl, h3⟩
        · exact .inr ⟨_ :: ns1, l1, m, fs, w, gs, ns2, rfl, h2, fun t f h => .label (h3 t f h)⟩
  | @directive s l0 l' isOpen args ts xs ns hi ho hp ih =>
    cases pre with
    | nil => cases e
    | cons t1 pre =>
      cases pre with
      | nil => simp at e
      | cons t2 pre =>
        simp only [List.cons_append, List.cons.injEq] at e
        obtain ⟨rfl, rfl, e⟩ := e
        rcases split_token e with ⟨a, rfl, rfl⟩ | ⟨c, rfl, rfl⟩
        · have hop : isOpen = true → ∃ t r, a = t :: r ∧ IsNewline t := by
            intro h
            obtain ⟨t, r, h1, h2⟩ := ho h
            cases a with
            | nil =>
              cases h1
              obtain ⟨_, h⟩ := h2
              cases h
            | cons t1 a =>
              cases h1
              exact ⟨_, _, rfl, h2⟩
          rcases ih rfl with ⟨p, ns', l1, d, l2, args', xs', h1, rfl, h3⟩ | ⟨ns1, l1, m, fs, w, gs, ns2, rfl, h2, h3⟩
          · refine .inl ⟨.directiveMarker l' :: .identifier s l0 :: (args ++ p), _, l1, d, l2, args', xs', .directive hi ?_ h1, by simp, h3⟩
            intro h
            obtain ⟨t, r, h4, h5⟩ := hop h
            cases p with
            | nil =>
              cases h4
              obtain ⟨_, h⟩ := h5
              cases h
            | cons t1 p =>
              cases h4
              exact ⟨_, _, rfl, h5⟩
          · refine .inr ⟨.directive l0 s xs :: ns1, l1, m, fs, w, gs, ns2, rfl, h2, fun t f h => ?_⟩
            have := Program.directive (s := s) (l := l0) (l' := l') hi (fun h => ?_) (h3 t f h)
            · simpa using this
            · obtain ⟨t, r, h4, h5⟩ := hop h
              exact ⟨t, r ++ _, by rw [h4]; rfl, h5⟩
        · obtain ⟨ys, z, zs, rfl, _, h2, _⟩ := item_split hi rfl (by simp)
          exact .inl ⟨[], [], l', s, l0, pre, ys, .empty, rfl, h2⟩
  | @instruction s l0 isOpen args ts fs ns hi ho hp ih =>
    cases pre with
    | nil => cases e
    | cons t1 pre =>
      simp only [List.cons_append, List.cons.injEq] at e
      obtain ⟨rfl, e⟩ := e
      rcases split_token e with ⟨a, rfl, rfl⟩ | ⟨c, rfl, rfl⟩
      · have hop : isOpen = true → ∃ t r, a = t :: r ∧ (IsNewline t ∨ IsComment t) := by
          intro h
          obtain ⟨t, r, h1, h2⟩ := ho h
          cases a with
          | nil =>
            cases h1
            rcases h2 with ⟨_, h⟩ | ⟨_, _, h⟩ <;> cases h
          | cons t1 a =>
            cases h1
            exact ⟨_, _, rfl, h2⟩
        rcases ih rfl with ⟨p, ns', l1, d, l2, args', xs', h1, rfl, h3⟩ | ⟨ns1, l1, m, fs', w, gs, ns2, rfl, h2, h3⟩
        · refine .inl ⟨.identifier s l0 :: (args ++ p), _, l1, d, l2, args', xs', .instruction hi ?_ h1, by simp, h3⟩
          intro h
          obtain ⟨t, r, h4, h5⟩ := hop h
          cases p with
          | nil =>
            cases h4
            rcases h5 with ⟨_, h⟩ | ⟨_, _, h⟩ <;> cases h
          | cons t1 p =>
            cases h4
            exact ⟨_, _, rfl, h5⟩
        · refine .inr ⟨.instruction l0 s fs :: ns1, l1, m, fs', w, gs, ns2, rfl, h2, fun t f h => ?_⟩
          have := Program.instruction (s := s) (l := l0) hi (fun h => ?_) (h3 t f h)
          · simpa using this
          · obtain ⟨t, r, h4, h5⟩ := hop h
            exact ⟨t, r ++ _, by rw [h4]; rfl, h5⟩
      · obtain ⟨ys, z, zs, rfl, h1, h2, h3⟩ := item_split hi rfl (by simp)
        cases h1 with
        | numeric hw =>
          refine .inr ⟨[], l0, s, ys, _, zs, ns, rfl, hw, fun t f h => ?_⟩
          have := Program.instruction (s := s) (l := l0) (h3 t f h) ho hp
          simpa using this

theorem item_marker {α : Type} {item : Token → α → Prop} (hit : ∀ l x, ¬ item (.directiveMarker l) x) {b : Bool}
    {ts : List Token} {xs : List α} (h : ItemList item b ts xs) (l : Loc) : .directiveMarker l ∉ ts := by
  induction h with
  | empty => simp
  | one hx =>
    simp only [List.mem_singleton]
    rintro rfl
    exact hit _ _ hx
  | more hx _ ih =>
    simp only [List.mem_cons, not_or]
    refine ⟨?_, by simp, ih⟩
    rintro rfl
    exact hit _ _ hx

/-- A program is divided at the marker of a directive. -/
theorem program_before_marker {ts : List Token} {ns : List Node} (h : Program ts ns) {p q : List Token} {l : Loc}
    (e : ts = p ++ .directiveMarker l :: q) : ∃ ns', Program p ns' := by
  induction h generalizing p with
  | empty => simp at e
  | @blank t ts ns hb hp ih =>
    cases p with
    | nil => exact ⟨[], .empty⟩
    | cons t1 p =>
      cases e
      obtain ⟨ns', h⟩ := ih rfl
      exact ⟨_, .blank hb h⟩
  | label hp ih =>
    cases p with
    | nil => exact ⟨[], .empty⟩
    | cons t1 p =>
      cases p with
      | nil => cases e
      | cons t2 p =>
        cases e
        obtain ⟨ns', h⟩ := ih rfl
        exact ⟨_, .label h⟩
  | @directive s l0 l' isOpen args ts xs ns hi ho hp ih =>
    cases p with
    | nil => exact ⟨[], .empty⟩
    | cons t1 p =>
      cases p with
      | nil => simp at e
      | cons t2 p =>
        simp only [List.cons_append, List.cons.injEq] at e
        obtain ⟨rfl, rfl, e⟩ := e
        rcases split_token e with ⟨a, rfl, rfl⟩ | ⟨c, rfl, rfl⟩
        · obtain ⟨ns', h⟩ := ih rfl
          refine ⟨_, .directive hi (fun h => ?_) h⟩
          obtain ⟨t, r, h1, h2⟩ := ho h
          cases a with
          | nil =>
            cases h1
            obtain ⟨_, h⟩ := h2
            cases h
          | cons t1 a =>
            cases h1
            exact ⟨_, _, rfl, h2⟩
        · exact (item_marker (fun _ _ h => by cases h) hi l (by simp)).elim
  | @instruction s l0 isOpen args ts fs ns hi ho hp ih =>
    cases p with
    | nil => exact ⟨[], .empty⟩
    | cons t1 p =>
      simp only [List.cons_append, List.cons.injEq] at e
      obtain ⟨rfl, e⟩ := e
      rcases split_token e with ⟨a, rfl, rfl⟩ | ⟨c, rfl, rfl⟩
      · obtain ⟨ns', h⟩ := ih rfl
        refine ⟨_, .instruction hi (fun h => ?_) h⟩
        obtain ⟨t, r, h1, h2⟩ := ho h
        cases a with
        | nil =>
          cases h1
          rcases h2 with ⟨_, h⟩ | ⟨_, _, h⟩ <;> cases h
        | cons t1 a =>
          cases h1
          exact ⟨_, _, rfl, h2⟩
      · exact (item_marker (fun _ _ h => by cases h) hi l (by simp)).elim

/-- Where a directive expects an argument, another token is reported. -/
theorem argument_error {p args : List Token} {ns : List Node} {l' l : Loc} {s : Str} {xs : List Literal} {t : Token}
    (hp : Program p ns) (hi : ItemList LiteralTok true args xs) (ht : ∀ x, ¬ LiteralTok t x) (hn : ¬ IsNewline t)
    (post : List Token) : parse (p ++ .directiveMarker l' :: .identifier s l :: (args ++ t :: post)) =
      .ret (.error (.unexpectedToken litExp t)) := by
  rw [parse_iff]
  exact program_then (out := .error _) hp (.directiveError (open_error hi rfl ht hn post)) (by rintro ⟨_, _, h⟩; cases h)
    (by rintro ⟨_, _, h⟩; cases h)

end C8S
