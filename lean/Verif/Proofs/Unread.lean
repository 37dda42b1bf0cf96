import Verif.Model.Stream
import Verif.Spec.Stream

/- The parser cannot tell two iterators apart that answer the calls it makes in the same way. -/

namespace C8S.Stream

open Spec Parser

variable {σ τ : Type} {next : σ → Run (Option Token × σ)} {next' : τ → Run (Option Token × τ)}

/-- Within the budget of calls, the iterators return and give the same answers. -/
def Same (next : σ → Run (Option Token × σ)) (next' : τ → Run (Option Token × τ)) (a : σ × Nat) (b : τ) : Prop :=
  ∃ l, pulls next a.2 a.1 = .ret l ∧ pulls next' a.2 b = .ret l

/-- If the computation over the limited iterator returns, then so does the other one, with a related result. -/
def Sim {α β : Type} (rel : α → β → Prop) (run : Run α) (run' : Run β) : Prop :=
  ∀ a, run = .ret a → ∃ b, run' = .ret b ∧ rel a b

theorem sim_ret {α β : Type} {rel : α → β → Prop} {a : α} {b : β} (h : rel a b) : Sim rel (.ret a) (.ret b) := by
  intro a' e
  cases e
  exact ⟨b, rfl, h⟩

theorem sim_panic {α β : Type} {rel : α → β → Prop} {run' : Run β} : Sim rel (.panic : Run α) run' := by
  intro a e
  cases e

theorem sim_bind {α β γ δ : Type} {rel : α → β → Prop} {rel' : γ → δ → Prop} {run : Run α} {run' : Run β} {g : α → Run γ}
    {g' : β → Run δ} (h : Sim rel run run') (hg : ∀ a b, rel a b → Sim rel' (g a) (g' b)) : Sim rel' (run >>= g) (run' >>= g') := by
  intro c e
  cases er : run with
  | panic => rw [er] at e; cases e
  | ret a =>
    rw [er] at e
    obtain ⟨b, eb, hr⟩ := h a er
    rw [eb]
    exact hg a b hr c e

theorem same_next (a : σ × Nat) (b : τ) (h : Same next next' a b) :
    Sim (fun x y => x.1 = y.1 ∧ Same next next' x.2 y.2) (limited next a) (next' b) := by
  obtain ⟨s, k⟩ := a
  obtain ⟨l, h1, h2⟩ := h
  cases k with
  | zero => exact sim_panic
  | succ k =>
    simp only [pulls] at h1 h2
    cases e1 : next s with
    | panic => rw [e1] at h1; cases h1
    | ret q1 =>
      cases e2 : next' b with
      | panic => rw [e2] at h2; cases h2
      | ret q2 =>
        obtain ⟨t1, s1⟩ := q1
        obtain ⟨t2, s2⟩ := q2
        rw [e1] at h1
        rw [e2] at h2
        simp only [Run.ret_bind] at h1 h2
        cases e3 : pulls next k s1 with
        | panic => rw [e3] at h1; cases h1
        | ret l1 =>
          cases e4 : pulls next' k s2 with
          | panic => rw [e4] at h2; cases h2
          | ret l2 =>
            rw [e3] at h1
            rw [e4] at h2
            simp only [Run.ret_bind, Run.pure_eq, Run.ret.injEq] at h1 h2
            subst h2
            simp only [List.cons.injEq] at h1
            obtain ⟨rfl, rfl⟩ := h1
            simp only [limited, e1, Run.ret_bind, Run.pure_eq]
            exact sim_ret ⟨rfl, l1, e3, e4⟩

/-- The parsers have read the same tokens. -/
structure Like (next : σ → Run (Option Token × σ)) (next' : τ → Run (Option Token × τ)) (p : Stream (σ × Nat)) (p' : Stream τ) :
    Prop where
  current : p.current = p'.current
  following : p.next = p'.next
  scanner : Same next next' p.scanner p'.scanner

/-- Results that are the same, together with parsers that have read the same tokens. -/
def LikeR {α : Type} (next : σ → Run (Option Token × σ)) (next' : τ → Run (Option Token × τ))
    (x : Except ParseError (α × Stream (σ × Nat))) (y : Except ParseError (α × Stream τ)) : Prop :=
  match x, y with
  | .error e, .error e' => e = e'
  | .ok (a, p), .ok (b, q) => a = b ∧ Like next next' p q
  | _, _ => False

theorem LikeR.cases {α : Type} {x : Except ParseError (α × Stream (σ × Nat))} {y : Except ParseError (α × Stream τ)}
    (h : LikeR next next' x y) :
    (∃ e, x = .error e ∧ y = .error e) ∨ ∃ a p q, x = .ok (a, p) ∧ y = .ok (a, q) ∧ Like next next' p q := by
  cases x with
  | error e =>
    cases y with
    | error e' =>
      obtain rfl : e = e' := h
      exact .inl ⟨e, rfl, rfl⟩
    | ok y => exact h.elim
  | ok x =>
    cases y with
    | error e' => exact h.elim
    | ok y =>
      obtain ⟨a, p⟩ := x
      obtain ⟨b, q⟩ := y
      obtain ⟨rfl, h⟩ := h
      exact .inr ⟨a, p, q, rfl, rfl, h⟩

theorem consume_sim {p : Stream (σ × Nat)} {q : Stream τ} (h : Like next next' p q) :
    Sim (fun x y => x.1 = y.1 ∧ Like next next' x.2 y.2) (consumeToken (limited next) p) (consumeToken next' q) := by
  refine sim_bind (same_next _ _ h.scanner) ?_
  rintro ⟨t, a⟩ ⟨t', b⟩ ⟨rfl, hs⟩
  exact sim_ret ⟨h.current, h.following, rfl, hs⟩

theorem new_sim {a : σ × Nat} {b : τ} (h : Same next next' a b) : Sim (Like next next') (new (limited next) a) (new next' b) := by
  refine sim_bind (same_next _ _ h) ?_
  rintro ⟨t, a⟩ ⟨t', b⟩ ⟨rfl, hs⟩
  refine sim_bind (same_next _ _ hs) ?_
  rintro ⟨t1, a1⟩ ⟨t1', b1⟩ ⟨rfl, hs1⟩
  exact sim_ret ⟨rfl, rfl, hs1⟩

theorem identifier_sim {p : Stream (σ × Nat)} {q : Stream τ} (h : Like next next' p q) :
    Sim (LikeR next next') (parseIdentifier (limited next) p) (parseIdentifier next' q) := by
  refine sim_bind (consume_sim h) ?_
  rintro ⟨t, a⟩ ⟨t', b⟩ ⟨ht, hs⟩
  obtain rfl : t = t' := ht
  cases t with
  | none => exact sim_ret rfl
  | some t =>
    cases t with
    | identifier s l => exact sim_ret ⟨rfl, hs⟩
    | _ => exact sim_ret rfl

theorem literal_sim {p : Stream (σ × Nat)} {q : Stream τ} (h : Like next next' p q) :
    Sim (LikeR next next') (parseLiteral (limited next) p) (parseLiteral next' q) := by
  rw [parseLiteral, parseLiteral, h.current]
  cases hq : q.current with
  | none => exact sim_ret rfl
  | some t =>
    cases t with
    | stringLiteral s l => exact sim_bind (consume_sim h) fun a b hab => sim_ret ⟨rfl, hab.2⟩
    | numericLiteral s l => exact sim_bind (consume_sim h) fun a b hab => sim_ret ⟨rfl, hab.2⟩
    | _ => exact sim_ret rfl

theorem field_sim {p : Stream (σ × Nat)} {q : Stream τ} (h : Like next next' p q) :
    Sim (LikeR next next') (parseField (limited next) p) (parseField next' q) := by
  rw [parseField, parseField, h.current]
  cases hq : q.current with
  | none => exact sim_ret rfl
  | some t =>
    cases t with
    | identifier s l =>
      show Sim _ (fieldOfIdentifier s >>= _) (fieldOfIdentifier s >>= _)
      refine sim_bind (rel := Eq) (fun a ha => ⟨a, ha, rfl⟩) ?_
      rintro f f' rfl
      exact sim_bind (consume_sim h) fun a b hab => sim_ret ⟨rfl, hab.2⟩
    | numericLiteral s l => exact sim_bind (consume_sim h) fun a b hab => sim_ret ⟨rfl, hab.2⟩
    | _ => exact sim_ret rfl

theorem literals_sim (n : Nat) : ∀ {p : Stream (σ × Nat)} {q : Stream τ} (list : List Literal), Like next next' p q →
    Sim (LikeR next next') (parseLiteralList (limited next) n p list) (parseLiteralList next' n q list) := by
  induction n with
  | zero => intro p q list h; exact sim_panic
  | succ n ih =>
    intro p q list h
    rw [parseLiteralList, parseLiteralList, h.current]
    by_cases hs : (∃ l, q.current = some (.newline l))
    · obtain ⟨l, hq⟩ := hs
      rw [hq]
      exact sim_ret ⟨rfl, h⟩
    · split
      · exact (hs ⟨_, ‹_›⟩).elim
      refine sim_bind (literal_sim h) ?_
      rintro x y hxy
      obtain ⟨e, rfl, rfl⟩ | ⟨a, p, q, rfl, rfl, h⟩ := hxy.cases
      · exact sim_ret rfl
      show Sim _ (match p.current with | some (.comma _) => _ | _ => _) (match q.current with | some (.comma _) => _ | _ => _)
      rw [h.current]
      cases hq : q.current with
      | none => exact sim_ret ⟨rfl, h⟩
      | some t =>
        cases t with
        | comma l => exact sim_bind (consume_sim h) fun a b hab => ih _ hab.2
        | _ => exact sim_ret ⟨rfl, h⟩

theorem fields_sim (n : Nat) : ∀ {p : Stream (σ × Nat)} {q : Stream τ} (list : List Field), Like next next' p q →
    Sim (LikeR next next') (parseFieldList (limited next) n p list) (parseFieldList next' n q list) := by
  induction n with
  | zero => intro p q list h; exact sim_panic
  | succ n ih =>
    intro p q list h
    rw [parseFieldList, parseFieldList, h.current]
    by_cases hs : (∃ l, q.current = some (.newline l)) ∨ ∃ s l, q.current = some (.singleLineComment s l)
    · obtain ⟨l, hq⟩ | ⟨s, l, hq⟩ := hs
      all_goals rw [hq]
      all_goals exact sim_ret ⟨rfl, h⟩
    · split
      · exact (hs (.inl ⟨_, ‹_›⟩)).elim
      · exact (hs (.inr ⟨_, _, ‹_›⟩)).elim
      refine sim_bind (field_sim h) ?_
      rintro x y hxy
      obtain ⟨e, rfl, rfl⟩ | ⟨a, p, q, rfl, rfl, h⟩ := hxy.cases
      · exact sim_ret rfl
      show Sim _ (match p.current with | some (.comma _) => _ | _ => _) (match q.current with | some (.comma _) => _ | _ => _)
      rw [h.current]
      cases hq : q.current with
      | none => exact sim_ret ⟨rfl, h⟩
      | some t =>
        cases t with
        | comma l => exact sim_bind (consume_sim h) fun a b hab => ih _ hab.2
        | _ => exact sim_ret ⟨rfl, h⟩

theorem label_sim {p : Stream (σ × Nat)} {q : Stream τ} (h : Like next next' p q) :
    Sim (LikeR next next') (parseLabel (limited next) p) (parseLabel next' q) := by
  refine sim_bind (identifier_sim h) ?_
  rintro x y hxy
  obtain ⟨e, rfl, rfl⟩ | ⟨⟨s, l⟩, p, q, rfl, rfl, h⟩ := hxy.cases
  · exact sim_ret rfl
  refine sim_bind (consume_sim h) ?_
  rintro ⟨t, a⟩ ⟨t', b⟩ ⟨ht, hs⟩
  obtain rfl : t = t' := ht
  cases t with
  | none => exact sim_ret rfl
  | some t =>
    cases t with
    | labelMarker l => exact sim_ret ⟨rfl, hs⟩
    | _ => exact sim_ret rfl

theorem instruction_sim (n : Nat) {p : Stream (σ × Nat)} {q : Stream τ} (h : Like next next' p q) :
    Sim (LikeR next next') (parseInstruction (limited next) n p) (parseInstruction next' n q) := by
  refine sim_bind (identifier_sim h) ?_
  rintro x y hxy
  obtain ⟨e, rfl, rfl⟩ | ⟨⟨s, l⟩, p, q, rfl, rfl, h⟩ := hxy.cases
  · exact sim_ret rfl
  refine sim_bind (fields_sim n [] h) ?_
  rintro x y hxy
  obtain ⟨e, rfl, rfl⟩ | ⟨fs, p, q, rfl, rfl, h⟩ := hxy.cases
  · exact sim_ret rfl
  · exact sim_ret ⟨rfl, h⟩

theorem directive_sim (n : Nat) {p : Stream (σ × Nat)} {q : Stream τ} (h : Like next next' p q) :
    Sim (LikeR next next') (parseDirective (limited next) n p) (parseDirective next' n q) := by
  refine sim_bind (consume_sim h) ?_
  rintro ⟨t, a⟩ ⟨t', b⟩ ⟨ht, hs⟩
  obtain rfl : t = t' := ht
  cases t with
  | none => exact sim_ret rfl
  | some t =>
    cases t with
    | directiveMarker l =>
      refine sim_bind (identifier_sim hs) ?_
      rintro x y hxy
      obtain ⟨e, rfl, rfl⟩ | ⟨⟨s, l⟩, p, q, rfl, rfl, h⟩ := hxy.cases
      · exact sim_ret rfl
      refine sim_bind (literals_sim n [] h) ?_
      rintro x y hxy
      obtain ⟨e, rfl, rfl⟩ | ⟨xs, p, q, rfl, rfl, h⟩ := hxy.cases
      · exact sim_ret rfl
      · exact sim_ret ⟨rfl, h⟩
    | _ => exact sim_ret rfl

theorem statement_sim (n : Nat) {p : Stream (σ × Nat)} {q : Stream τ} (h : Like next next' p q) :
    Sim (LikeR next next') (parseStatement (limited next) n p) (parseStatement next' n q) := by
  rw [parseStatement, parseStatement, h.current, h.following]
  cases hq : q.current with
  | none => exact sim_ret rfl
  | some t =>
    cases t with
    | directiveMarker l => exact directive_sim n h
    | identifier s l =>
      cases hq' : q.next with
      | none => exact instruction_sim n h
      | some t =>
        cases t with
        | labelMarker l => exact label_sim h
        | _ => exact instruction_sim n h
    | _ => exact sim_ret rfl

theorem list_sim (n : Nat) : ∀ {p : Stream (σ × Nat)} {q : Stream τ} (nodes : List Node), Like next next' p q →
    Sim Eq (parseStatementList (limited next) n p nodes) (parseStatementList next' n q nodes) := by
  induction n with
  | zero => intro p q nodes h; exact sim_panic
  | succ n ih =>
    intro p q nodes h
    rw [parseStatementList, parseStatementList, h.current]
    cases hq : q.current with
    | none => exact sim_ret rfl
    | some t =>
      cases t with
      | newline l => exact sim_bind (consume_sim h) fun a b hab => ih _ hab.2
      | singleLineComment s l => exact sim_bind (consume_sim h) fun a b hab => ih _ hab.2
      | _ =>
        refine sim_bind (statement_sim n h) ?_
        rintro x y hxy
        obtain ⟨e, rfl, rfl⟩ | ⟨a, p, q, rfl, rfl, h⟩ := hxy.cases
        · exact sim_ret rfl
        · exact ih _ h

theorem stream_sim {s : σ} {s' : τ} {k fuel : Nat} {out : Except ParseError (List Node)} (h : Same next next' (s, k) s')
    (ho : parseStream (limited next) fuel (s, k) = .ret out) : parseStream next' fuel s' = .ret out := by
  obtain ⟨b, hb, rfl⟩ := sim_bind (rel' := Eq) (new_sim h) (fun a b hab => list_sim fuel [] hab) _ ho
  exact hb

end C8S.Stream
