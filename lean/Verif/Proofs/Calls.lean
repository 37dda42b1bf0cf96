import Verif.Proofs.Stream
import Verif.Proofs.Grammar

/- How often the parser calls the iterator it reads from. -/

namespace C8S.Stream

open Spec Parser

/-- The computation takes `c` out of its budget of calls, and panics with less. -/
def Spends {β : Type} (run : Nat → Run β) (c : Nat) (out : Nat → Run β) : Prop :=
  (∀ k, run (c + k) = out k) ∧ ∀ k, k < c → run k = .panic

theorem spends_zero {β : Type} {run out : Nat → Run β} (h : ∀ k, run k = out k) : Spends run 0 out :=
  ⟨fun k => by rw [Nat.zero_add]; exact h k, fun k h => by omega⟩

theorem spends_trans {β : Type} {run mid out : Nat → Run β} {c d : Nat} (h : Spends run c mid) (h' : Spends mid d out) :
    Spends run (c + d) out := by
  refine ⟨fun k => ?_, fun k hk => ?_⟩
  · rw [Nat.add_assoc, h.1]
    exact h'.1 k
  · by_cases hc : k < c
    · exact h.2 k hc
    · obtain ⟨j, rfl⟩ : ∃ j, k = c + j := ⟨k - c, by omega⟩
      rw [h.1]
      exact h'.2 j (by omega)

/-- A call, then the remainder. -/
theorem spends_one {β : Type} {run out : Nat → Run β} (h : ∀ k, run (k + 1) = out k) (h0 : run 0 = .panic) : Spends run 1 out := by
  refine ⟨fun k => by rw [Nat.add_comm]; exact h k, fun k hk => ?_⟩
  obtain rfl : k = 0 := by omega
  exact h0

theorem spends_two {β : Type} {run out : Nat → Run β} (h : ∀ k, run (k + 2) = out k) (h0 : run 0 = .panic) (h1 : run 1 = .panic) :
    Spends run 2 out := by
  refine ⟨fun k => by rw [Nat.add_comm]; exact h k, fun k hk => ?_⟩
  obtain rfl | rfl : k = 0 ∨ k = 1 := by omega
  · exact h0
  · exact h1

/-- What follows a computation is spent after it. -/
theorem spends_bind {α β : Type} {run : Nat → Run α} {c : Nat} {out : Nat → α} (g : α → Run β)
    (h : Spends run c (fun k => .ret (out k))) : Spends (fun k => run k >>= g) c (fun k => g (out k)) := by
  refine ⟨fun k => ?_, fun k hk => ?_⟩
  · show run (c + k) >>= g = _
    rw [h.1]
    rfl
  · show run k >>= g = _
    rw [h.2 k hk]
    rfl

variable {σ : Type} {next : σ → Run (Option Token × σ)}

/-- The parser with a budget of calls. -/
def lift (p : Stream σ) (k : Nat) : Stream (σ × Nat) := ⟨(p.scanner, k), p.current, p.next⟩

theorem new_calls {s : σ} {ts : List Token} (h : Yields next s ts) :
    ∃ p, At next p ts ∧ (∀ k, new (limited next) (s, k + 2) = .ret (lift p k)) ∧ new (limited next) (s, 0) = .panic ∧
      new (limited next) (s, 1) = .panic := by
  obtain ⟨s1, e1, h1⟩ := yields_next h
  obtain ⟨s2, e2, h2⟩ := yields_next h1
  refine ⟨⟨s2, ts.head?, ts.tail.head?⟩, ⟨rfl, rfl, h2⟩, fun k => ?_, rfl, ?_⟩
  · simp [new, limited, e1, e2, lift]
  · simp [new, limited, e1]

theorem consume_calls {p : Stream σ} {ts : List Token} (h : At next p ts) :
    ∃ p', At next p' ts.tail ∧ (∀ k, consumeToken (limited next) (lift p (k + 1)) = .ret (ts.head?, lift p' k)) ∧
      consumeToken (limited next) (lift p 0) = .panic := by
  obtain ⟨s1, e1, h1⟩ := yields_next h.yields
  refine ⟨⟨s1, p.next, ts.tail.tail.head?⟩, ⟨h.following, rfl, h1⟩, fun k => ?_, rfl⟩
  simp [consumeToken, limited, e1, lift, h.current]

theorem lift_current {p : Stream σ} {ts : List Token} (h : At next p ts) (k : Nat) : (lift p k).current = ts.head? := h.current

theorem lift_next {p : Stream σ} {ts : List Token} (h : At next p ts) (k : Nat) : (lift p k).next = ts.tail.head? := h.following

/-- An item, seen as the next token, is taken with one call. -/
theorem literal_calls {p : Stream σ} {t : Token} {r : List Token} {x : Literal} (h : At next p (t :: r)) (hx : litItem t = some x) :
    ∃ p', At next p' r ∧ (∀ k, parseLiteral (limited next) (lift p (k + 1)) = .ret (.ok (x, lift p' k))) ∧
      parseLiteral (limited next) (lift p 0) = .panic := by
  obtain ⟨p', h', hs, h0⟩ := consume_calls h
  have hc := lift_current h
  refine ⟨p', h', fun k => ?_, ?_⟩ <;>
  · cases t with
    | stringLiteral s l => cases hx; simp [parseLiteral, hc, hs, h0]
    | numericLiteral s l => cases hx; simp [parseLiteral, hc, hs, h0]
    | _ => cases hx

theorem field_calls {p : Stream σ} {t : Token} {r : List Token} {x : Field} (h : At next p (t :: r)) (hx : fieldItem t = some x) :
    ∃ p', At next p' r ∧ (∀ k, parseField (limited next) (lift p (k + 1)) = .ret (.ok (x, lift p' k))) ∧
      parseField (limited next) (lift p 0) = .panic := by
  obtain ⟨p', h', hs, h0⟩ := consume_calls h
  have hc := lift_current h
  refine ⟨p', h', fun k => ?_, ?_⟩ <;>
  · cases t with
    | identifier s l =>
      obtain ⟨f, hf, _⟩ := fieldOfIdentifier_ret s
      have : f = x := by simpa [fieldItem, hf] using hx
      subst this
      simp [parseField, hc, hf, hs, h0]
    | numericLiteral s l => cases hx; simp [parseField, hc, hs, h0]
    | _ => cases hx

/-- An item and a comma are read, and the list goes on. -/
theorem literals_more {p : Stream σ} {t : Token} {l : Loc} {r : List Token} {x : Literal} (h : At next p (t :: .comma l :: r))
    (hx : litItem t = some x) (n : Nat) (list : List Literal) :
    ∃ p', At next p' r ∧ Spends (fun k => parseLiteralList (limited next) (n + 1) (lift p k) list) 2
      (fun k => parseLiteralList (limited next) n (lift p' k) (list ++ [x])) := by
  obtain ⟨p1, h1, e1, z1⟩ := literal_calls h hx
  obtain ⟨p2, h2, e2, z2⟩ := consume_calls h1
  have hc := lift_current h
  have hc1 := lift_current h1
  have ht : ∀ l, t ≠ .newline l := by rintro l rfl; cases hx
  refine ⟨p2, h2, spends_two (fun k => ?_) ?_ ?_⟩ <;>
  · rw [parseLiteralList]
    simp [hc, hc1, e1, z1, e2, z2, ht]

theorem fields_more {p : Stream σ} {t : Token} {l : Loc} {r : List Token} {x : Field} (h : At next p (t :: .comma l :: r))
    (hx : fieldItem t = some x) (n : Nat) (list : List Field) :
    ∃ p', At next p' r ∧ Spends (fun k => parseFieldList (limited next) (n + 1) (lift p k) list) 2
      (fun k => parseFieldList (limited next) n (lift p' k) (list ++ [x])) := by
  obtain ⟨p1, h1, e1, z1⟩ := field_calls h hx
  obtain ⟨p2, h2, e2, z2⟩ := consume_calls h1
  have hc := lift_current h
  have hc1 := lift_current h1
  have ht : ∀ l, t ≠ .newline l := by rintro l rfl; cases hx
  have ht' : ∀ s l, t ≠ .singleLineComment s l := by rintro s l rfl; cases hx
  refine ⟨p2, h2, spends_two (fun k => ?_) ?_ ?_⟩ <;>
  · rw [parseFieldList]
    simp [hc, hc1, e1, z1, e2, z2, ht, ht']

/-- A complete list. -/
theorem literals_calls {b : Bool} {used : List Token} {xs : List Literal} (hi : ItemList (fun t x => litItem t = some x) b used xs) :
    ∀ {p : Stream σ} {rest : List Token} (n : Nat) (list : List Literal), Follows litStop b rest → At next p (used ++ rest) →
      used.length < n →
      ∃ p', At next p' rest ∧ Spends (fun k => parseLiteralList (limited next) n (lift p k) list) used.length
        (fun k => .ret (.ok (list ++ xs, lift p' k))) := by
  induction hi with
  | empty =>
    intro p rest n list hf h hn
    obtain ⟨t, r, rfl, hs⟩ := hf
    obtain ⟨n, rfl⟩ : ∃ m, n = m + 1 := ⟨n - 1, by simp at hn; omega⟩
    refine ⟨p, h, spends_zero fun k => ?_⟩
    have hc := lift_current h k
    cases t with
    | newline l => simp [parseLiteralList, hc]
    | _ => cases hs
  | @one t x hx =>
    intro p rest n list hf h hn
    obtain ⟨n, rfl⟩ : ∃ m, n = m + 1 := ⟨n - 1, by simp at hn; omega⟩
    obtain ⟨p1, h1, e1, z1⟩ := literal_calls h hx
    have hc := lift_current h
    have hc1 := lift_current h1
    have ht : ∀ l, t ≠ .newline l := by rintro l rfl; cases hx
    refine ⟨p1, h1, spends_one (fun k => ?_) ?_⟩
    · rw [parseLiteralList]
      simp only [hc, hc1, e1, List.cons_append, List.head?_cons, Run.ret_bind]
      cases rest with
      | nil => cases t <;> simp_all
      | cons a r =>
        cases a with
        | comma l => exact (hf ⟨l, r, rfl⟩).elim
        | _ => cases t <;> simp_all
    · rw [parseLiteralList]
      simp [hc, z1, ht]
  | @more b t x l ts xs hx _ ih =>
    intro p rest n list hf h hn
    simp only [List.length_cons] at hn
    obtain ⟨n, rfl⟩ : ∃ m, n = m + 1 := ⟨n - 1, by omega⟩
    obtain ⟨p1, h1, s1⟩ := literals_more h hx n list
    obtain ⟨p2, h2, s2⟩ := ih n (list ++ [x]) hf h1 (by omega)
    refine ⟨p2, h2, ?_⟩
    have := spends_trans s1 s2
    rwa [show 2 + ts.length = (t :: .comma l :: ts).length by simp; omega, List.append_assoc] at this

theorem fields_calls {b : Bool} {used : List Token} {xs : List Field} (hi : ItemList (fun t x => fieldItem t = some x) b used xs) :
    ∀ {p : Stream σ} {rest : List Token} (n : Nat) (list : List Field), Follows fieldStop b rest → At next p (used ++ rest) →
      used.length < n →
      ∃ p', At next p' rest ∧ Spends (fun k => parseFieldList (limited next) n (lift p k) list) used.length
        (fun k => .ret (.ok (list ++ xs, lift p' k))) := by
  induction hi with
  | empty =>
    intro p rest n list hf h hn
    obtain ⟨t, r, rfl, hs⟩ := hf
    obtain ⟨n, rfl⟩ : ∃ m, n = m + 1 := ⟨n - 1, by simp at hn; omega⟩
    refine ⟨p, h, spends_zero fun k => ?_⟩
    have hc := lift_current h k
    cases t with
    | newline l => simp [parseFieldList, hc]
    | singleLineComment s l => simp [parseFieldList, hc]
    | _ => cases hs
  | @one t x hx =>
    intro p rest n list hf h hn
    obtain ⟨n, rfl⟩ : ∃ m, n = m + 1 := ⟨n - 1, by simp at hn; omega⟩
    obtain ⟨p1, h1, e1, z1⟩ := field_calls h hx
    have hc := lift_current h
    have hc1 := lift_current h1
    have ht : ∀ l, t ≠ .newline l := by rintro l rfl; cases hx
    have ht' : ∀ s l, t ≠ .singleLineComment s l := by rintro s l rfl; cases hx
    refine ⟨p1, h1, spends_one (fun k => ?_) ?_⟩
    · rw [parseFieldList]
      simp only [hc, hc1, e1, List.cons_append, List.head?_cons, Run.ret_bind]
      cases rest with
      | nil => cases t <;> simp_all
      | cons a r =>
        cases a with
        | comma l => exact (hf ⟨l, r, rfl⟩).elim
        | _ => cases t <;> simp_all
    · rw [parseFieldList]
      simp [hc, z1, ht, ht']
  | @more b t x l ts xs hx _ ih =>
    intro p rest n list hf h hn
    simp only [List.length_cons] at hn
    obtain ⟨n, rfl⟩ : ∃ m, n = m + 1 := ⟨n - 1, by omega⟩
    obtain ⟨p1, h1, s1⟩ := fields_more h hx n list
    obtain ⟨p2, h2, s2⟩ := ih n (list ++ [x]) hf h1 (by omega)
    refine ⟨p2, h2, ?_⟩
    have := spends_trans s1 s2
    rwa [show 2 + ts.length = (t :: .comma l :: ts).length by simp; omega, List.append_assoc] at this

/-- The error of a list that ends, or goes on, with something else than an item. -/
def badError (exp : List Str) : List Token → ParseError
  | [] => .unexpectedEndOfFile exp
  | t :: _ => .unexpectedToken exp t

theorem badItem_error {α : Type} {item : Token → Option α} {stop : Token → Bool} {exp : List Str} {r : List Token}
    (h : BadItem item stop r) : itemList item stop exp r = .error (badError exp r) := by
  obtain rfl | ⟨t, post, rfl, h1, h2⟩ := h
  · simp [itemList, badError]
  · simp [itemList, h1, h2, badError]

theorem literals_bad {used : List Token} {xs : List Literal} (hi : Asking litItem used xs) :
    ∀ {p : Stream σ} {r : List Token} (n : Nat) (list : List Literal), BadItem litItem litStop r → At next p (used ++ r) →
      used.length < n →
      Spends (fun k => parseLiteralList (limited next) n (lift p k) list) used.length (fun _ => .ret (.error (badError litExp r))) := by
  induction hi with
  | empty =>
    intro p r n list hb h hn
    obtain ⟨n, rfl⟩ : ∃ m, n = m + 1 := ⟨n - 1, by simp at hn; omega⟩
    refine spends_zero fun k => ?_
    have hc := lift_current h k
    obtain rfl | ⟨t, post, rfl, h1, h2⟩ := hb
    · simp only [parseLiteralList, parseLiteral, hc]
      rfl
    · cases t with
      | newline l => cases h2
      | numericLiteral s l => cases h1
      | stringLiteral s l => cases h1
      | _ =>
        simp only [parseLiteralList, parseLiteral, hc]
        rfl
  | @more t x l ts xs hx _ ih =>
    intro p r n list hb h hn
    simp only [List.length_cons] at hn
    obtain ⟨n, rfl⟩ : ∃ m, n = m + 1 := ⟨n - 1, by omega⟩
    obtain ⟨p1, h1, s1⟩ := literals_more h hx n list
    have := spends_trans s1 (ih n (list ++ [x]) hb h1 (by omega))
    rwa [show 2 + ts.length = (t :: .comma l :: ts).length by simp; omega] at this

theorem fields_bad {used : List Token} {xs : List Field} (hi : Asking fieldItem used xs) :
    ∀ {p : Stream σ} {r : List Token} (n : Nat) (list : List Field), BadItem fieldItem fieldStop r → At next p (used ++ r) →
      used.length < n →
      Spends (fun k => parseFieldList (limited next) n (lift p k) list) used.length (fun _ => .ret (.error (badError fieldExp r))) := by
  induction hi with
  | empty =>
    intro p r n list hb h hn
    obtain ⟨n, rfl⟩ : ∃ m, n = m + 1 := ⟨n - 1, by simp at hn; omega⟩
    refine spends_zero fun k => ?_
    have hc := lift_current h k
    obtain rfl | ⟨t, post, rfl, h1, h2⟩ := hb
    · simp only [parseFieldList, parseField, hc]
      rfl
    · cases t with
      | newline l => cases h2
      | singleLineComment s l => cases h2
      | numericLiteral s l => cases h1
      | identifier s l =>
        obtain ⟨f, hf, _⟩ := fieldOfIdentifier_ret s
        simp [fieldItem, hf] at h1
      | _ =>
        simp only [parseFieldList, parseField, hc]
        rfl
  | @more t x l ts xs hx _ ih =>
    intro p r n list hb h hn
    simp only [List.length_cons] at hn
    obtain ⟨n, rfl⟩ : ∃ m, n = m + 1 := ⟨n - 1, by omega⟩
    obtain ⟨p1, h1, s1⟩ := fields_more h hx n list
    have := spends_trans s1 (ih n (list ++ [x]) hb h1 (by omega))
    rwa [show 2 + ts.length = (t :: .comma l :: ts).length by simp; omega] at this

/-- Going on after a list, or stopping at its error. -/
def after {α β : Type} (g : α → Run (Except ParseError β)) : Except ParseError α → Run (Except ParseError β)
  | .error e => .ret (.error e)
  | .ok a => g a

/-- A blank token is read with one call. -/
theorem blank_calls {p : Stream σ} {t : Token} {r : List Token} (h : At next p (t :: r)) (hb : isBlankTok t = true) (n : Nat)
    (nodes : List Node) :
    ∃ p', At next p' r ∧ Spends (fun k => parseStatementList (limited next) (n + 1) (lift p k) nodes) 1
      (fun k => parseStatementList (limited next) n (lift p' k) nodes) := by
  obtain ⟨p', h', e, z⟩ := consume_calls h
  have hc := lift_current h
  refine ⟨p', h', spends_one (fun k => ?_) ?_⟩ <;>
  · cases t with
    | newline l => simp [parseStatementList, hc, e, z]
    | singleLineComment s l => simp [parseStatementList, hc, e, z]
    | _ => cases hb

theorem label_calls {p : Stream σ} {s : Str} {l l' : Loc} {r : List Token} (h : At next p (.identifier s l :: .labelMarker l' :: r))
    (n : Nat) (nodes : List Node) :
    ∃ p', At next p' r ∧ Spends (fun k => parseStatementList (limited next) (n + 1) (lift p k) nodes) 2
      (fun k => parseStatementList (limited next) n (lift p' k) (nodes ++ [.label l s])) := by
  obtain ⟨p1, h1, e1, z1⟩ := consume_calls h
  obtain ⟨p2, h2, e2, z2⟩ := consume_calls h1
  have hc := lift_current h
  have hn := lift_next h
  refine ⟨p2, h2, spends_two (fun k => ?_) ?_ ?_⟩ <;>
  simp [parseStatementList, parseStatement, parseLabel, parseIdentifier, hc, hn, e1, e2, z1, z2]

/-- The name of an instruction is read, then its list. -/
theorem instruction_start {p : Stream σ} {s : Str} {l : Loc} {r : List Token} (h : At next p (.identifier s l :: r))
    (hm : ¬ StartsMarker r) (n : Nat) (nodes : List Node) :
    ∃ p', At next p' r ∧ Spends (fun k => parseStatementList (limited next) (n + 1) (lift p k) nodes) 1
      (fun k => parseFieldList (limited next) n (lift p' k) [] >>=
        after fun a => parseStatementList (limited next) n a.2 (nodes ++ [.instruction l s a.1])) := by
  obtain ⟨p1, h1, e1, z1⟩ := consume_calls h
  have hc := lift_current h
  have hn := lift_next h
  have inst : ∀ k, parseStatement (limited next) n (lift p k) = parseInstruction (limited next) n (lift p k) := by
    intro k
    simp only [parseStatement, hc, List.head?_cons, hn, List.tail_cons]
    cases r with
    | nil => rfl
    | cons t' r =>
      cases t' with
      | labelMarker l' => exact (hm ⟨l', r, rfl⟩).elim
      | _ => rfl
  refine ⟨p1, h1, spends_one (fun k => ?_) ?_⟩
  · simp only [parseStatementList, hc, inst, parseInstruction, parseIdentifier, e1, List.head?_cons, Run.ret_bind, Run.pure_eq]
    cases parseFieldList (limited next) n (lift p1 k) [] with
    | panic => rfl
    | ret q => cases q <;> rfl
  · simp only [parseStatementList, hc, inst, parseInstruction, parseIdentifier, z1, List.head?_cons]
    rfl

theorem directive_start {p : Stream σ} {s : Str} {l l' : Loc} {r : List Token}
    (h : At next p (.directiveMarker l' :: .identifier s l :: r)) (n : Nat) (nodes : List Node) :
    ∃ p', At next p' r ∧ Spends (fun k => parseStatementList (limited next) (n + 1) (lift p k) nodes) 2
      (fun k => parseLiteralList (limited next) n (lift p' k) [] >>=
        after fun a => parseStatementList (limited next) n a.2 (nodes ++ [.directive l s a.1])) := by
  obtain ⟨p1, h1, e1, z1⟩ := consume_calls h
  obtain ⟨p2, h2, e2, z2⟩ := consume_calls h1
  have hc := lift_current h
  refine ⟨p2, h2, spends_two (fun k => ?_) ?_ ?_⟩
  · simp only [parseStatementList, parseStatement, hc, parseDirective, parseIdentifier, e1, e2, List.head?_cons, List.tail_cons,
      Run.ret_bind, Run.pure_eq]
    cases parseLiteralList (limited next) n (lift p2 k) [] with
    | panic => rfl
    | ret q => cases q <;> rfl
  · simp only [parseStatementList, parseStatement, hc, parseDirective, z1, List.head?_cons]
    rfl
  · simp only [parseStatementList, parseStatement, hc, parseDirective, parseIdentifier, e1 0, z2, List.head?_cons,
      Run.ret_bind]
    rfl

theorem instruction_calls {p : Stream σ} {s : Str} {l : Loc} {used rest : List Token} {fs : List Field}
    (h : At next p (.identifier s l :: (used ++ rest))) (hm : ¬ StartsMarker (used ++ rest))
    (hi : itemList fieldItem fieldStop fieldExp (used ++ rest) = .ok (fs, rest)) (n : Nat) (hn : used.length < n)
    (nodes : List Node) :
    ∃ p', At next p' rest ∧ Spends (fun k => parseStatementList (limited next) (n + 1) (lift p k) nodes) (1 + used.length)
      (fun k => parseStatementList (limited next) n (lift p' k) (nodes ++ [.instruction l s fs])) := by
  obtain ⟨p1, h1, s1⟩ := instruction_start h hm n nodes
  obtain ⟨b, used', he, hl, hf⟩ := itemList_ok _ (Nat.le_refl _) hi
  obtain rfl := List.append_cancel_right he
  obtain ⟨p2, h2, s2⟩ := fields_calls hl n [] hf h1 hn
  exact ⟨p2, h2, spends_trans s1 (spends_bind _ s2)⟩

theorem directive_calls {p : Stream σ} {s : Str} {l l' : Loc} {used rest : List Token} {xs : List Literal}
    (h : At next p (.directiveMarker l' :: .identifier s l :: (used ++ rest)))
    (hi : itemList litItem litStop litExp (used ++ rest) = .ok (xs, rest)) (n : Nat) (hn : used.length < n)
    (nodes : List Node) :
    ∃ p', At next p' rest ∧ Spends (fun k => parseStatementList (limited next) (n + 1) (lift p k) nodes) (2 + used.length)
      (fun k => parseStatementList (limited next) n (lift p' k) (nodes ++ [.directive l s xs])) := by
  obtain ⟨p1, h1, s1⟩ := directive_start h n nodes
  obtain ⟨b, used', he, hl, hf⟩ := itemList_ok _ (Nat.le_refl _) hi
  obtain rfl := List.append_cancel_right he
  obtain ⟨p2, h2, s2⟩ := literals_calls hl n [] hf h1 hn
  exact ⟨p2, h2, spends_trans s1 (spends_bind _ s2)⟩

theorem program_calls {ts : List Token} {out : Except ParseError (List Node)} (h : ParseOutcome ts out) :
    ∀ {ns : List Node} {p : Stream σ} (n : Nat) (nodes : List Node), out = .ok ns → At next p ts → ts.length < n →
      Spends (fun k => parseStatementList (limited next) n (lift p k) nodes) ts.length (fun _ => .ret (.ok (nodes ++ ns))) := by
  induction h with
  | empty =>
    intro ns p n nodes he ha hn
    cases he
    obtain ⟨n, rfl⟩ : ∃ m, n = m + 1 := ⟨n - 1, by omega⟩
    exact spends_zero fun k => by simp [parseStatementList, lift_current ha k]
  | @blank t ts out hb ho ih =>
    intro ns p n nodes he ha hn
    simp only [List.length_cons] at hn ⊢
    obtain ⟨n, rfl⟩ : ∃ m, n = m + 1 := ⟨n - 1, by omega⟩
    obtain ⟨p1, h1, s1⟩ := blank_calls ha hb n nodes
    have := spends_trans s1 (ih n nodes he h1 (by omega))
    rwa [Nat.add_comm 1 ts.length] at this
  | @label s l l' ts out ho ih =>
    intro ns p n nodes he ha hn
    simp only [List.length_cons] at hn ⊢
    obtain ⟨n, rfl⟩ : ∃ m, n = m + 1 := ⟨n - 1, by omega⟩
    obtain ⟨ns', rfl, rfl⟩ := except_map_ok he
    obtain ⟨p1, h1, s1⟩ := label_calls ha n nodes
    have := spends_trans s1 (ih n _ rfl h1 (by omega))
    rw [show 2 + ts.length = ts.length + 1 + 1 by omega] at this
    simpa using this
  | @directive s l l' as rest xs out hi ho ih =>
    intro ns p n nodes he ha hn
    obtain ⟨n, rfl⟩ : ∃ m, n = m + 1 := ⟨n - 1, by omega⟩
    obtain ⟨ns', rfl, rfl⟩ := except_map_ok he
    obtain ⟨b, used, rfl, -, -⟩ := itemList_ok _ (Nat.le_refl _) hi
    simp only [List.length_cons, List.length_append] at hn ⊢
    obtain ⟨p1, h1, s1⟩ := directive_calls ha hi n (by omega) nodes
    have := spends_trans s1 (ih n _ rfl h1 (by omega))
    rw [show 2 + used.length + rest.length = used.length + rest.length + 1 + 1 by omega] at this
    simpa using this
  | @instruction s l as rest xs out hm hi ho ih =>
    intro ns p n nodes he ha hn
    obtain ⟨n, rfl⟩ : ∃ m, n = m + 1 := ⟨n - 1, by omega⟩
    obtain ⟨ns', rfl, rfl⟩ := except_map_ok he
    obtain ⟨b, used, rfl, -, -⟩ := itemList_ok _ (Nat.le_refl _) hi
    simp only [List.length_cons, List.length_append] at hn ⊢
    obtain ⟨p1, h1, s1⟩ := instruction_calls ha hm hi n (by omega) nodes
    have := spends_trans s1 (ih n _ rfl h1 (by omega))
    rw [show 1 + used.length + rest.length = used.length + rest.length + 1 by omega] at this
    simpa using this
  | _ => intro ns p n nodes he; cases he

/-- What is read past the tokens before an error: the token after a directive marker that is not a name. -/
def extra (e : ParseError) : Nat := if expected e = [DisplayNames.identifier] then 1 else 0

theorem litExp_ne : litExp ≠ [DisplayNames.identifier] := by decide

theorem fieldExp_ne : fieldExp ≠ [DisplayNames.identifier] := by decide

theorem stmtExp_ne : stmtExp ≠ [DisplayNames.identifier] := by decide

theorem badError_extra {exp : List Str} (h : exp ≠ [DisplayNames.identifier]) (r : List Token) : extra (badError exp r) = 0 := by
  cases r <;> simp [extra, badError, expected, h]

theorem error_calls {ts pre : List Token} (h : ErrorPos ts pre) :
    ∃ e, ParseOutcome ts (.error e) ∧ ∀ {p : Stream σ} (n : Nat) (nodes : List Node), At next p ts → ts.length < n →
      Spends (fun k => parseStatementList (limited next) n (lift p k) nodes) (pre.length + extra e) (fun _ => .ret (.error e)) := by
  induction h with
  | @blank t ts pre hb _ ih =>
    obtain ⟨e, ho, ih⟩ := ih
    refine ⟨e, .blank hb ho, fun {p} n nodes ha hn => ?_⟩
    simp only [List.length_cons] at hn ⊢
    obtain ⟨n, rfl⟩ : ∃ m, n = m + 1 := ⟨n - 1, by omega⟩
    obtain ⟨p1, h1, s1⟩ := blank_calls ha hb n nodes
    have := spends_trans s1 (ih n nodes h1 (by omega))
    rwa [show 1 + (pre.length + extra e) = pre.length + 1 + extra e by omega] at this
  | @label s l l' ts pre _ ih =>
    obtain ⟨e, ho, ih⟩ := ih
    refine ⟨e, .label ho, fun {p} n nodes ha hn => ?_⟩
    simp only [List.length_cons] at hn ⊢
    obtain ⟨n, rfl⟩ : ∃ m, n = m + 1 := ⟨n - 1, by omega⟩
    obtain ⟨p1, h1, s1⟩ := label_calls ha n nodes
    have := spends_trans s1 (ih n _ h1 (by omega))
    rwa [show 2 + (pre.length + extra e) = pre.length + 1 + 1 + extra e by omega] at this
  | @directive s l l' used rest pre xs hi _ ih =>
    obtain ⟨e, ho, ih⟩ := ih
    refine ⟨e, .directive hi ho, fun {p} n nodes ha hn => ?_⟩
    simp only [List.length_cons, List.length_append] at hn ⊢
    obtain ⟨n, rfl⟩ : ∃ m, n = m + 1 := ⟨n - 1, by omega⟩
    obtain ⟨p1, h1, s1⟩ := directive_calls ha hi n (by omega) nodes
    have := spends_trans s1 (ih n _ h1 (by omega))
    rwa [show 2 + used.length + (pre.length + extra e) = used.length + pre.length + 1 + 1 + extra e by omega] at this
  | @directiveError s l l' used r xs hask hb =>
    refine ⟨badError litExp r, .directiveError (asking_error lit_proper hask r (badItem_error hb)), fun {p} n nodes ha hn => ?_⟩
    simp only [List.length_cons, List.length_append] at hn ⊢
    obtain ⟨n, rfl⟩ : ∃ m, n = m + 1 := ⟨n - 1, by omega⟩
    obtain ⟨p1, h1, s1⟩ := directive_start ha n nodes
    have := spends_trans s1 (spends_bind _ (literals_bad hask n [] hb h1 (by omega)))
    rwa [show 2 + used.length = used.length + 1 + 1 + extra (badError litExp r) by rw [badError_extra litExp_ne]; omega] at this
  | @directiveName l' r hr =>
    have main : ∀ e, ParseOutcome (.directiveMarker l' :: r) (.error e) → e = badError [DisplayNames.identifier] r →
        ∃ e, ParseOutcome (.directiveMarker l' :: r) (.error e) ∧ ∀ {p : Stream σ} (n : Nat) (nodes : List Node),
          At next p (.directiveMarker l' :: r) → (Token.directiveMarker l' :: r).length < n →
          Spends (fun k => parseStatementList (limited next) n (lift p k) nodes) ([Token.directiveMarker l'].length + extra e)
            (fun _ => .ret (.error e)) := by
      rintro e ho rfl
      refine ⟨_, ho, fun {p} n nodes ha hn => ?_⟩
      obtain ⟨n, rfl⟩ : ∃ m, n = m + 1 := ⟨n - 1, by omega⟩
      obtain ⟨p1, h1, e1, z1⟩ := consume_calls ha
      obtain ⟨p2, h2, e2, z2⟩ := consume_calls h1
      have hc := lift_current ha
      have hx : [Token.directiveMarker l'].length + extra (badError [DisplayNames.identifier] r) = 2 := by
        cases r <;> simp [extra, badError, expected]
      rw [hx]
      refine spends_two (fun k => ?_) ?_ ?_
      · simp only [parseStatementList, parseStatement, hc, parseDirective, parseIdentifier, e1, e2, List.head?_cons, List.tail_cons,
          Run.ret_bind, Run.pure_eq]
        cases r with
        | nil => rfl
        | cons t q =>
          cases t with
          | identifier s l => exact (hr _ _ _ rfl).elim
          | _ => rfl
      · simp only [parseStatementList, parseStatement, hc, parseDirective, z1, List.head?_cons]
        rfl
      · simp only [parseStatementList, parseStatement, hc, parseDirective, parseIdentifier, e1 0, z2, List.head?_cons,
          Run.ret_bind]
        rfl
    cases r with
    | nil => exact main _ .directiveEnd rfl
    | cons t q =>
      cases t with
      | identifier s l => exact (hr _ _ _ rfl).elim
      | _ => exact main _ (.directiveName rfl) rfl
  | @instruction s l used rest pre fs hm hi _ ih =>
    obtain ⟨e, ho, ih⟩ := ih
    refine ⟨e, .instruction hm hi ho, fun {p} n nodes ha hn => ?_⟩
    simp only [List.length_cons, List.length_append] at hn ⊢
    obtain ⟨n, rfl⟩ : ∃ m, n = m + 1 := ⟨n - 1, by omega⟩
    obtain ⟨p1, h1, s1⟩ := instruction_calls ha hm hi n (by omega) nodes
    have := spends_trans s1 (ih n _ h1 (by omega))
    rwa [show 1 + used.length + (pre.length + extra e) = used.length + pre.length + 1 + extra e by omega] at this
  | @instructionError s l used r fs hm hask hb =>
    refine ⟨badError fieldExp r, .instructionError hm (asking_error field_proper hask r (badItem_error hb)),
      fun {p} n nodes ha hn => ?_⟩
    simp only [List.length_cons, List.length_append] at hn ⊢
    obtain ⟨n, rfl⟩ : ∃ m, n = m + 1 := ⟨n - 1, by omega⟩
    obtain ⟨p1, h1, s1⟩ := instruction_start ha hm n nodes
    have := spends_trans s1 (spends_bind _ (fields_bad hask n [] hb h1 (by omega)))
    rwa [show 1 + used.length = used.length + 1 + extra (badError fieldExp r) by rw [badError_extra fieldExp_ne]; omega] at this
  | @statement t ts hb hs =>
    refine ⟨_, .statement hb hs, fun {p} n nodes ha hn => ?_⟩
    obtain ⟨n, rfl⟩ : ∃ m, n = m + 1 := ⟨n - 1, by omega⟩
    have hx : ([] : List Token).length + extra (.unexpectedToken stmtExp t) = 0 := by simp [extra, expected, stmtExp_ne]
    rw [hx]
    refine spends_zero fun k => ?_
    have hc := lift_current ha k
    cases t with
    | newline l => cases hb
    | singleLineComment s l => cases hb
    | directiveMarker l => cases hs
    | identifier s l => cases hs
    | _ =>
      simp only [parseStatementList, parseStatement, hc]
      rfl

/-- The whole parser: two calls to see the first two tokens. -/
theorem stream_calls {s : σ} {ts : List Token} (h : Yields next s ts) {fuel c : Nat} {out : Except ParseError (List Node)}
    (hs : ∀ {p : Stream σ}, At next p ts →
      Spends (fun k => parseStatementList (limited next) fuel (lift p k) []) c (fun _ => .ret out)) (k : Nat) :
    parseStream (limited next) fuel (s, k) = if c + 2 ≤ k then .ret out else .panic := by
  obtain ⟨p, ha, e, z0, z1⟩ := new_calls h
  have : Spends (fun k => parseStream (limited next) fuel (s, k)) 2 (fun k => parseStatementList (limited next) fuel (lift p k) []) :=
    spends_two (fun k => by simp [parseStream, e]) (by simp [parseStream, z0]) (by simp [parseStream, z1])
  have := spends_trans this (hs ha)
  by_cases hk : c + 2 ≤ k
  · obtain ⟨j, rfl⟩ : ∃ j, k = 2 + c + j := ⟨k - (2 + c), by omega⟩
    rw [if_pos hk]
    exact this.1 j
  · rw [if_neg hk]
    exact this.2 k (by omega)

end C8S.Stream
