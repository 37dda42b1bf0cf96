import Verif.Model.Stack
import Verif.Proofs.ParseList
import Verif.Spec.Depth

/- Lemmas on the parser with a bounded stack. -/

namespace C8S

open Spec

namespace Parser

/-! ### Lists -/

/-- With more room the result is the same. -/
theorem literalList_more : ∀ (n m : Nat) (p : Parser) (l : List Literal), n ≤ m → parseLiteralList n p l ≠ .panic →
    parseLiteralList m p l = parseLiteralList n p l := by
  intro n
  induction n with
  | zero => intro m p l _ h; exact (h rfl).elim
  | succ n ih =>
    intro m p l hm h
    cases m with
    | zero => omega
    | succ m =>
      rw [parseLiteralList] at h ⊢
      rw [parseLiteralList]
      split
      · rfl
      · split
        · rfl
        · split
          · refine ih m _ _ (by omega) ?_
            simp_all
          · rfl

/-- A list takes room for its items. -/
theorem literalList_room : ∀ (n : Nat) (p p' : Parser) (l l' : List Literal), parseLiteralList n p l = .ret (.ok (l', p')) →
    l'.length ≤ l.length + n := by
  intro n
  induction n with
  | zero => intro p p' l l' h; cases h
  | succ n ih =>
    intro p p' l l' h
    rw [parseLiteralList] at h
    split at h
    · cases h
      omega
    · split at h
      · cases h
      · split at h
        · have := ih _ _ _ _ h
          rw [List.length_append, List.length_singleton] at this
          omega
        · cases h
          rw [List.length_append, List.length_singleton]
          omega

/-- Lists grow. -/
theorem literalList_grows : ∀ (n : Nat) (p p' : Parser) (l l' : List Literal), parseLiteralList n p l = .ret (.ok (l', p')) →
    l.length ≤ l'.length := by
  intro n
  induction n with
  | zero => intro p p' l l' h; cases h
  | succ n ih =>
    intro p p' l l' h
    rw [parseLiteralList] at h
    split at h
    · cases h
      omega
    · split at h
      · cases h
      · split at h
        · have := ih _ _ _ _ h
          rw [List.length_append, List.length_singleton] at this
          omega
        · cases h
          rw [List.length_append, List.length_singleton]
          omega

/-- Room for the items and one more is enough. -/
theorem literalList_enough : ∀ (m n : Nat) (p p' : Parser) (l l' : List Literal), parseLiteralList m p l = .ret (.ok (l', p')) →
    l'.length < l.length + n → parseLiteralList n p l = .ret (.ok (l', p')) := by
  intro m
  induction m with
  | zero => intro n p p' l l' h _; cases h
  | succ m ih =>
    intro n p p' l l' h hn
    have hl := literalList_grows _ _ _ _ _ h
    cases n with
    | zero => omega
    | succ n =>
      rw [parseLiteralList] at h ⊢
      split at h
      · exact h
      · split at h
        · cases h
        · split at h
          · refine ih _ _ _ _ _ h ?_
            rw [List.length_append, List.length_singleton]
            omega
          · exact h

/-- There is always a result if there is room for all tokens. -/
theorem literalList_ret (r : List Token) (n : Nat) (h : r.length < n) : parseLiteralList n (Parser.new r) [] ≠ .panic := by
  rw [parseLiteralList_eq n r [] h]
  cases itemList litItem litStop litExp r <;> intro h <;> cases h

/-- What is left of the tokens. -/
theorem literalList_rest (r : List Token) (p' : Parser) (l' : List Literal)
    (h : parseLiteralList (r.length + 1) (Parser.new r) [] = .ret (.ok (l', p'))) :
    ∃ ts', p' = Parser.new ts' ∧ ts' <:+ r := by
  rw [parseLiteralList_eq _ r [] (Nat.lt_succ_self _)] at h
  cases e : itemList litItem litStop litExp r with
  | error _ => rw [e] at h; cases h
  | ok q =>
    rw [e] at h
    cases h
    obtain ⟨_, used, e, _, _⟩ := itemList_ok _ (Nat.le_refl _) e
    exact ⟨_, rfl, _, e.symm⟩

/-- With any room, the list is read as with all room, or there is not enough. -/
theorem literalList_same (r : List Token) (n : Nat) : parseLiteralList n (Parser.new r) [] = .panic ∨
    parseLiteralList n (Parser.new r) [] = parseLiteralList (r.length + 1) (Parser.new r) [] := by
  by_cases h : parseLiteralList n (Parser.new r) [] = .panic
  · exact .inl h
  · right
    by_cases hn : n ≤ r.length + 1
    · exact (literalList_more _ _ _ _ hn h).symm
    · exact literalList_more _ _ _ _ (by omega) (literalList_ret r _ (Nat.lt_succ_self _))

/-- With more room the result is the same. -/
theorem fieldList_more : ∀ (n m : Nat) (p : Parser) (l : List Field), n ≤ m → parseFieldList n p l ≠ .panic →
    parseFieldList m p l = parseFieldList n p l := by
  intro n
  induction n with
  | zero => intro m p l _ h; exact (h rfl).elim
  | succ n ih =>
    intro m p l hm h
    cases m with
    | zero => omega
    | succ m =>
      rw [parseFieldList] at h ⊢
      rw [parseFieldList]
      split
      · rfl
      · rfl
      · split
        · rfl
        · rfl
        · split
          · refine ih m _ _ (by omega) ?_
            simp_all
          · rfl

/-- A list takes room for its items. -/
theorem fieldList_room : ∀ (n : Nat) (p p' : Parser) (l l' : List Field), parseFieldList n p l = .ret (.ok (l', p')) →
    l'.length ≤ l.length + n := by
  intro n
  induction n with
  | zero => intro p p' l l' h; cases h
  | succ n ih =>
    intro p p' l l' h
    rw [parseFieldList] at h
    split at h
    · cases h
      omega
    · cases h
      omega
    · split at h
      · cases h
      · cases h
      · split at h
        · have := ih _ _ _ _ h
          rw [List.length_append, List.length_singleton] at this
          omega
        · cases h
          rw [List.length_append, List.length_singleton]
          omega

/-- Lists grow. -/
theorem fieldList_grows : ∀ (n : Nat) (p p' : Parser) (l l' : List Field), parseFieldList n p l = .ret (.ok (l', p')) →
    l.length ≤ l'.length := by
  intro n
  induction n with
  | zero => intro p p' l l' h; cases h
  | succ n ih =>
    intro p p' l l' h
    rw [parseFieldList] at h
    split at h
    · cases h
      omega
    · cases h
      omega
    · split at h
      · cases h
      · cases h
      · split at h
        · have := ih _ _ _ _ h
          rw [List.length_append, List.length_singleton] at this
          omega
        · cases h
          rw [List.length_append, List.length_singleton]
          omega

/-- Room for the items and one more is enough. -/
theorem fieldList_enough : ∀ (m n : Nat) (p p' : Parser) (l l' : List Field), parseFieldList m p l = .ret (.ok (l', p')) →
    l'.length < l.length + n → parseFieldList n p l = .ret (.ok (l', p')) := by
  intro m
  induction m with
  | zero => intro n p p' l l' h _; cases h
  | succ m ih =>
    intro n p p' l l' h hn
    have hl := fieldList_grows _ _ _ _ _ h
    cases n with
    | zero => omega
    | succ n =>
      rw [parseFieldList] at h ⊢
      split at h
      · exact h
      · exact h
      · split at h
        · cases h
        · cases h
        · split at h
          · refine ih _ _ _ _ _ h ?_
            rw [List.length_append, List.length_singleton]
            omega
          · exact h

/-- There is always a result if there is room for all tokens. -/
theorem fieldList_ret (r : List Token) (n : Nat) (h : r.length < n) : parseFieldList n (Parser.new r) [] ≠ .panic := by
  rw [parseFieldList_eq n r [] h]
  cases itemList fieldItem fieldStop fieldExp r <;> intro h <;> cases h

/-- What is left of the tokens. -/
theorem fieldList_rest (r : List Token) (p' : Parser) (l' : List Field)
    (h : parseFieldList (r.length + 1) (Parser.new r) [] = .ret (.ok (l', p'))) :
    ∃ ts', p' = Parser.new ts' ∧ ts' <:+ r := by
  rw [parseFieldList_eq _ r [] (Nat.lt_succ_self _)] at h
  cases e : itemList fieldItem fieldStop fieldExp r with
  | error _ => rw [e] at h; cases h
  | ok q =>
    rw [e] at h
    cases h
    obtain ⟨_, used, e, _, _⟩ := itemList_ok _ (Nat.le_refl _) e
    exact ⟨_, rfl, _, e.symm⟩

/-- With any room, the list is read as with all room, or there is not enough. -/
theorem fieldList_same (r : List Token) (n : Nat) : parseFieldList n (Parser.new r) [] = .panic ∨
    parseFieldList n (Parser.new r) [] = parseFieldList (r.length + 1) (Parser.new r) [] := by
  by_cases h : parseFieldList n (Parser.new r) [] = .panic
  · exact .inl h
  · right
    by_cases hn : n ≤ r.length + 1
    · exact (fieldList_more _ _ _ _ hn h).symm
    · exact fieldList_more _ _ _ _ (by omega) (fieldList_ret r _ (Nat.lt_succ_self _))

/-! ### Statements -/

/-- A statement from its list. -/
def ofList {α : Type} (make : List α → Node) :
    Run (Except ParseError (List α × Parser)) → Run (Except ParseError (Node × Parser))
  | .panic => .panic
  | .ret (.error e) => .ret (.error e)
  | .ret (.ok (xs, p)) => .ret (.ok (make xs, p))

/-- How the room matters: in the list of a directive, in the list of an instruction, or not at all. -/
theorem statementOn_shape (ts : List Token) :
    (∃ l id loc r, ts = .directiveMarker l :: .identifier id loc :: r ∧
      (∀ room, (Parser.new ts).parseStatementOn room =
        ofList (.directive loc id) (parseLiteralList room (Parser.new r) [])) ∧
      (Parser.new ts).parseStatement =
        ofList (.directive loc id) (parseLiteralList (r.length + 1) (Parser.new r) [])) ∨
    (∃ id loc r, ts = .identifier id loc :: r ∧
      (∀ room, (Parser.new ts).parseStatementOn room =
        ofList (.instruction loc id) (parseFieldList room (Parser.new r) [])) ∧
      (Parser.new ts).parseStatement =
        ofList (.instruction loc id) (parseFieldList (r.length + 1) (Parser.new r) [])) ∨
    ((∀ room, (Parser.new ts).parseStatementOn room = (Parser.new ts).parseStatement) ∧
      (Parser.new ts).parseStatement ≠ .panic ∧
      ∀ n p, (Parser.new ts).parseStatement = .ret (.ok (n, p)) →
        listLength n = 0 ∧ ∃ ts', p = Parser.new ts' ∧ ts' <:+ ts) := by
  cases ts with
  | nil => exact .inr (.inr ⟨fun _ => rfl, (by intro h; cases h), fun n p h => (by cases h)⟩)
  | cons t r =>
    cases t with
    | directiveMarker l =>
      cases r with
      | nil => exact .inr (.inr ⟨fun _ => rfl, (by intro h; cases h), fun n p h => (by cases h)⟩)
      | cons t' r =>
        cases t' with
        | identifier id loc =>
          refine .inl ⟨l, id, loc, r, rfl, fun room => ?_, ?_⟩
          · unfold parseStatementOn parseDirectiveOn parseIdentifier
            simp only [new_current, new_consume, List.head?_cons, List.tail_cons]
            generalize parseLiteralList room (Parser.new r) [] = x
            rcases x with ⟨_ | _⟩ | _ <;> rfl
          · unfold parseStatement parseDirective parseIdentifier
            simp only [new_current, new_consume, List.head?_cons, List.tail_cons, new_remaining]
            generalize parseLiteralList (r.length + 1) (Parser.new r) [] = x
            rcases x with ⟨_ | _⟩ | _ <;> rfl
        | _ => exact .inr (.inr ⟨fun _ => rfl, (by intro h; cases h), fun n p h => (by cases h)⟩)
    | identifier id loc =>
      by_cases hm : ∃ l r', r = .labelMarker l :: r'
      · obtain ⟨l, r', rfl⟩ := hm
        refine .inr (.inr ⟨fun _ => rfl, ?_, fun n p h => ?_⟩)
        · intro h
          cases h
        · unfold parseStatement parseLabel parseIdentifier at h
          simp only [new_current, new_next, new_consume, List.head?_cons, List.tail_cons] at h
          cases h
          exact ⟨rfl, r', rfl, [.identifier id loc, .labelMarker l], rfl⟩
      · refine .inr (.inl ⟨id, loc, r, rfl, fun room => ?_, ?_⟩)
        · have : (Parser.new (.identifier id loc :: r)).parseStatementOn room =
              (Parser.new (.identifier id loc :: r)).parseInstructionOn room := by
            cases r with
            | nil => rfl
            | cons t' r =>
              cases t' with
              | labelMarker l => exact (hm ⟨l, r, rfl⟩).elim
              | _ => rfl
          rw [this]
          unfold parseInstructionOn parseIdentifier
          simp only [new_consume, List.head?_cons, List.tail_cons]
          generalize parseFieldList room (Parser.new r) [] = x
          rcases x with ⟨_ | _⟩ | _ <;> rfl
        · have : (Parser.new (.identifier id loc :: r)).parseStatement =
              (Parser.new (.identifier id loc :: r)).parseInstruction := by
            cases r with
            | nil => rfl
            | cons t' r =>
              cases t' with
              | labelMarker l => exact (hm ⟨l, r, rfl⟩).elim
              | _ => rfl
          rw [this]
          unfold parseInstruction parseIdentifier
          simp only [new_consume, List.head?_cons, List.tail_cons, new_remaining]
          generalize parseFieldList (r.length + 1) (Parser.new r) [] = x
          rcases x with ⟨_ | _⟩ | _ <;> rfl
    | _ => exact .inr (.inr ⟨fun _ => rfl, (by intro h; cases h), fun n p h => (by cases h)⟩)

theorem ofList_ok {α : Type} {make : List α → Node} {x : Run (Except ParseError (List α × Parser))} {n : Node}
    {p : Parser} (h : ofList make x = .ret (.ok (n, p))) : ∃ xs, x = .ret (.ok (xs, p)) ∧ n = make xs := by
  match x, h with
  | .ret (.ok (xs, p')), h =>
    cases h
    exact ⟨xs, rfl, rfl⟩

theorem ofList_panic {α : Type} {make : List α → Node} {x : Run (Except ParseError (List α × Parser))}
    (h : ofList make x = .panic) : x = .panic := by
  match x, h with
  | .panic, _ => rfl

theorem statementOn_same (room : Nat) (ts : List Token) : (Parser.new ts).parseStatementOn room = .panic ∨
    (Parser.new ts).parseStatementOn room = (Parser.new ts).parseStatement := by
  rcases statementOn_shape ts with ⟨l, id, loc, r, rfl, h1, h2⟩ | ⟨id, loc, r, rfl, h1, h2⟩ | ⟨h, _⟩
  · rw [h1, h2]
    rcases literalList_same r room with e | e <;> rw [e]
    · exact .inl rfl
    · exact .inr rfl
  · rw [h1, h2]
    rcases fieldList_same r room with e | e <;> rw [e]
    · exact .inl rfl
    · exact .inr rfl
  · exact .inr (h room)

theorem commasBelow_suffix {k : Nat} {ts r : List Token} (h : CommasBelow k ts) (hr : r <:+ ts) : CommasBelow k r := by
  obtain ⟨w, rfl⟩ := hr
  rintro before line after rfl hn
  exact h (w ++ before) line after (by simp) hn

theorem commas_append (a b : List Token) : commas (a ++ b) = commas a + commas b := by
  unfold commas
  rw [List.filter_append, List.length_append]

/-- Few commas in all. -/
theorem commasBelow_all {k : Nat} {ts : List Token} (h : commas ts < k) : CommasBelow k ts := by
  rintro before line after rfl _
  rw [commas_append, commas_append] at h
  omega

/-- Few commas on the first line, and on the others. -/
theorem commasBelow_line {k : Nat} {a ts : List Token} {l : Loc} (h : commas a < k) (hts : CommasBelow k ts) :
    CommasBelow k (a ++ .newline l :: ts) := by
  intro before line after e hn
  rw [List.append_assoc] at e
  rcases List.append_eq_append_iff.1 e with ⟨w, e1, e2⟩ | ⟨w, e1, e2⟩
  · cases w with
    | nil =>
      cases line with
      | nil => exact Nat.lt_of_le_of_lt (Nat.zero_le _) h
      | cons t line =>
        cases e2
        exact absurd List.mem_cons_self (hn l)
    | cons t w =>
      rw [List.cons_append] at e2
      cases e2
      exact hts w line after (by simp) hn
  · rcases List.append_eq_append_iff.1 e2 with ⟨w', e3, e4⟩ | ⟨w', e3, e4⟩
    · have : commas a = commas before + (commas line + commas w') := by rw [e1, e3, commas_append, commas_append]
      omega
    · cases w' with
      | nil =>
        rw [List.append_nil] at e3
        have : commas a = commas before + commas line := by rw [e1, e3, commas_append]
        omega
      | cons t w' =>
        rw [List.cons_append] at e4
        cases e4
        exact absurd (by rw [e3]; simp) (hn l)

/-- If there are few commas on the line, there is a result. -/
theorem literalList_commas : ∀ (n : Nat) (r : List Token) (l : List Literal),
    (∀ line after, r = line ++ after → (∀ l, .newline l ∉ line) → commas line < n) →
    parseLiteralList n (Parser.new r) l ≠ .panic := by
  intro n
  induction n with
  | zero =>
    intro r l h
    exact absurd (h [] r rfl (by simp)) (by omega)
  | succ n ih =>
    intro r l h
    rw [parseLiteralList]
    cases r with
    | nil => intro e; cases e
    | cons t r =>
      have key : ∀ (x : Literal) (_ : ∀ l, t ≠ .newline l),
          (match (Parser.new r).current with
          | some (.comma _) => parseLiteralList n (Parser.new r).consumeToken.2 (l ++ [x])
          | _ => .ret (.ok (l ++ [x], Parser.new r))) ≠ .panic := by
        intro x ht
        cases r with
        | nil => intro e; cases e
        | cons t' r =>
          cases t' with
          | comma lc =>
            simp only [new_current, List.head?_cons, new_consume, List.tail_cons]
            refine ih r _ fun line after e hn => ?_
            subst e
            have := h (t :: .comma lc :: line) after rfl (by
              intro l hl
              rcases List.mem_cons.1 hl with hl | hl
              · exact ht l hl.symm
              · rcases List.mem_cons.1 hl with hl | hl
                · cases hl
                · exact hn l hl)
            have h2 : commas line + 1 ≤ commas (t :: .comma lc :: line) := by
              unfold commas
              cases t <;> simp
            omega
          | _ => intro e; cases e
      cases t with
      | numericLiteral v loc => exact key _ (by intro l e; cases e)
      | stringLiteral v loc => exact key _ (by intro l e; cases e)
      | _ => intro e; cases e

/-- If there are few commas on the line, there is a result. -/
theorem fieldList_commas : ∀ (n : Nat) (r : List Token) (l : List Field),
    (∀ line after, r = line ++ after → (∀ l, .newline l ∉ line) → commas line < n) →
    parseFieldList n (Parser.new r) l ≠ .panic := by
  intro n
  induction n with
  | zero =>
    intro r l h
    exact absurd (h [] r rfl (by simp)) (by omega)
  | succ n ih =>
    intro r l h
    rw [parseFieldList]
    cases r with
    | nil => intro e; cases e
    | cons t r =>
      have key : ∀ (x : Field) (_ : ∀ l, t ≠ .newline l),
          (match (Parser.new r).current with
          | some (.comma _) => parseFieldList n (Parser.new r).consumeToken.2 (l ++ [x])
          | _ => .ret (.ok (l ++ [x], Parser.new r))) ≠ .panic := by
        intro x ht
        cases r with
        | nil => intro e; cases e
        | cons t' r =>
          cases t' with
          | comma lc =>
            simp only [new_current, List.head?_cons, new_consume, List.tail_cons]
            refine ih r _ fun line after e hn => ?_
            subst e
            have := h (t :: .comma lc :: line) after rfl (by
              intro l hl
              rcases List.mem_cons.1 hl with hl | hl
              · exact ht l hl.symm
              · rcases List.mem_cons.1 hl with hl | hl
                · cases hl
                · exact hn l hl)
            have h2 : commas line + 1 ≤ commas (t :: .comma lc :: line) := by
              unfold commas
              cases t <;> simp
            omega
          | _ => intro e; cases e
      cases t with
      | numericLiteral v lc => exact key (.numericLiteral (BitVec.ofNat 12 v)) (by intro l e; cases e)
      | identifier id lc =>
        simp only [parseField, new_current, new_consume, List.head?_cons, List.tail_cons]
        cases hf : fieldOfIdentifier id with
        | panic => exact (fieldOfIdentifier_no_panic id hf).elim
        | ret f => exact key f (by intro l e; cases e)
      | _ => intro e; cases e

theorem statementOn_all (room : Nat) (ts : List Token) (h : CommasBelow room ts) :
    (Parser.new ts).parseStatementOn room = (Parser.new ts).parseStatement := by
  rcases statementOn_same room ts with e | e
  · rcases statementOn_shape ts with ⟨l, id, loc, r, rfl, h1, _⟩ | ⟨id, loc, r, rfl, h1, _⟩ | ⟨h, _⟩
    · rw [h1] at e
      refine (literalList_commas room r [] ?_ (ofList_panic e)).elim
      rintro line after rfl hn
      exact h [.directiveMarker l, .identifier id loc] line after rfl hn
    · rw [h1] at e
      refine (fieldList_commas room r [] ?_ (ofList_panic e)).elim
      rintro line after rfl hn
      exact h [.identifier id loc] line after rfl hn
    · exact h room
  · exact e

theorem statement_rest (ts : List Token) (n : Node) (p : Parser) (h : (Parser.new ts).parseStatement = .ret (.ok (n, p))) :
    ∃ ts', p = Parser.new ts' ∧ ts' <:+ ts := by
  rcases statementOn_shape ts with ⟨l, id, loc, r, rfl, h1, h2⟩ | ⟨id, loc, r, rfl, h1, h2⟩ | ⟨_, _, h3⟩
  · rw [h2] at h
    obtain ⟨xs, e, _⟩ := ofList_ok h
    obtain ⟨ts', e, hl⟩ := literalList_rest r p xs e
    exact ⟨ts', e, hl.trans (List.suffix_cons _ _ |>.trans (List.suffix_cons _ _))⟩
  · rw [h2] at h
    obtain ⟨xs, e, _⟩ := ofList_ok h
    obtain ⟨ts', e, hl⟩ := fieldList_rest r p xs e
    exact ⟨ts', e, hl.trans (List.suffix_cons _ _)⟩
  · exact (h3 n p h).2

theorem statementOn_enough (room : Nat) (ts : List Token) (n : Node) (p : Parser)
    (h : (Parser.new ts).parseStatement = .ret (.ok (n, p))) (hn : listLength n < room) :
    (Parser.new ts).parseStatementOn room = .ret (.ok (n, p)) := by
  rcases statementOn_shape ts with ⟨l, id, loc, r, rfl, h1, h2⟩ | ⟨id, loc, r, rfl, h1, h2⟩ | ⟨h3, _⟩
  · rw [h2] at h
    obtain ⟨xs, e, rfl⟩ := ofList_ok h
    rw [h1, literalList_enough _ room _ _ _ _ e (by simpa [listLength] using hn)]
    rfl
  · rw [h2] at h
    obtain ⟨xs, e, rfl⟩ := ofList_ok h
    rw [h1, fieldList_enough _ room _ _ _ _ e (by simpa [listLength] using hn)]
    rfl
  · rw [h3, h]

theorem statementOn_room (room : Nat) (ts : List Token) (n : Node) (p : Parser)
    (h : (Parser.new ts).parseStatementOn room = .ret (.ok (n, p))) : listLength n ≤ room := by
  rcases statementOn_shape ts with ⟨l, id, loc, r, rfl, h1, h2⟩ | ⟨id, loc, r, rfl, h1, h2⟩ | ⟨h3, _, h4⟩
  · rw [h1] at h
    obtain ⟨xs, e, rfl⟩ := ofList_ok h
    simpa [listLength] using literalList_room _ _ _ _ _ e
  · rw [h1] at h
    obtain ⟨xs, e, rfl⟩ := ofList_ok h
    simpa [listLength] using fieldList_room _ _ _ _ _ e
  · rw [h3] at h
    rw [(h4 n p h).1]
    omega

/-! ### Programs -/

theorem listOn_same (room : Nat) : ∀ (fuel : Nat) (ts : List Token) (nodes : List Node),
    parseStatementListOn room fuel (Parser.new ts) nodes = .panic ∨
    parseStatementListOn room fuel (Parser.new ts) nodes = parseStatementList fuel (Parser.new ts) nodes := by
  intro fuel
  induction fuel with
  | zero => intro ts nodes; exact .inl rfl
  | succ fuel ih =>
    intro ts nodes
    rw [parseStatementListOn, parseStatementList]
    cases ts with
    | nil => exact .inr rfl
    | cons t r =>
      have key : (match (Parser.new (t :: r)).parseStatementOn room with
          | .panic => Run.panic
          | .ret (.error e) => Run.ret (Except.error e)
          | .ret (.ok (node, p)) => parseStatementListOn room fuel p (nodes ++ [node])) = Run.panic ∨
          (match (Parser.new (t :: r)).parseStatementOn room with
          | .panic => Run.panic
          | .ret (.error e) => Run.ret (Except.error e)
          | .ret (.ok (node, p)) => parseStatementListOn room fuel p (nodes ++ [node])) =
          (match (Parser.new (t :: r)).parseStatement with
          | .panic => Run.panic
          | .ret (.error e) => Run.ret (Except.error e)
          | .ret (.ok (node, p)) => parseStatementList fuel p (nodes ++ [node])) := by
        rcases statementOn_same room (t :: r) with e | e
        · rw [e]
          exact .inl rfl
        · rw [e]
          match e' : (Parser.new (t :: r)).parseStatement with
          | .panic => exact .inl rfl
          | .ret (.error e) => exact .inr rfl
          | .ret (.ok (n, p)) =>
            obtain ⟨ts', rfl, _⟩ := statement_rest _ _ _ e'
            exact ih ts' _
      cases t with
      | singleLineComment s l =>
        simp only [new_current, List.head?_cons, new_consume, List.tail_cons]
        exact ih r nodes
      | newline l =>
        simp only [new_current, List.head?_cons, new_consume, List.tail_cons]
        exact ih r nodes
      | _ => exact key

theorem listOn_all (room : Nat) : ∀ (fuel : Nat) (ts : List Token) (nodes : List Node), CommasBelow room ts →
    parseStatementListOn room fuel (Parser.new ts) nodes = parseStatementList fuel (Parser.new ts) nodes := by
  intro fuel
  induction fuel with
  | zero => intro ts nodes _; rfl
  | succ fuel ih =>
    intro ts nodes hl
    rw [parseStatementListOn, parseStatementList]
    cases ts with
    | nil => rfl
    | cons t r =>
      have hr : CommasBelow room r := commasBelow_suffix hl (List.suffix_cons _ _)
      have key : (match (Parser.new (t :: r)).parseStatementOn room with
          | .panic => Run.panic
          | .ret (.error e) => Run.ret (Except.error e)
          | .ret (.ok (node, p)) => parseStatementListOn room fuel p (nodes ++ [node])) =
          (match (Parser.new (t :: r)).parseStatement with
          | .panic => Run.panic
          | .ret (.error e) => Run.ret (Except.error e)
          | .ret (.ok (node, p)) => parseStatementList fuel p (nodes ++ [node])) := by
        rw [statementOn_all room _ hl]
        match e' : (Parser.new (t :: r)).parseStatement with
        | .panic => rfl
        | .ret (.error e) => rfl
        | .ret (.ok (n, p)) =>
          obtain ⟨ts', rfl, h⟩ := statement_rest _ _ _ e'
          exact ih ts' _ (commasBelow_suffix hl h)
      cases t with
      | singleLineComment s l =>
        simp only [new_current, List.head?_cons, new_consume, List.tail_cons]
        exact ih r nodes hr
      | newline l =>
        simp only [new_current, List.head?_cons, new_consume, List.tail_cons]
        exact ih r nodes hr
      | _ => exact key

theorem list_grows : ∀ (fuel : Nat) (ts : List Token) (nodes all : List Node),
    parseStatementList fuel (Parser.new ts) nodes = .ret (.ok all) → ∃ more, all = nodes ++ more := by
  intro fuel
  induction fuel with
  | zero => intro ts nodes all h; cases h
  | succ fuel ih =>
    intro ts nodes all h
    rw [parseStatementList] at h
    cases ts with
    | nil =>
      cases h
      exact ⟨[], (List.append_nil _).symm⟩
    | cons t r =>
      have key : (match (Parser.new (t :: r)).parseStatement with
          | .panic => Run.panic
          | .ret (.error e) => Run.ret (Except.error e)
          | .ret (.ok (node, p)) => parseStatementList fuel p (nodes ++ [node])) = Run.ret (.ok all) →
          ∃ more, all = nodes ++ more := by
        intro h
        match e' : (Parser.new (t :: r)).parseStatement with
        | .panic => rw [e'] at h; cases h
        | .ret (.error e) => rw [e'] at h; cases h
        | .ret (.ok (n, p)) =>
          rw [e'] at h
          obtain ⟨ts', rfl, _⟩ := statement_rest _ _ _ e'
          obtain ⟨more, e⟩ := ih ts' _ _ h
          exact ⟨n :: more, by rw [e, List.append_assoc]; rfl⟩
      cases t with
      | singleLineComment s l =>
        simp only [new_current, List.head?_cons, new_consume, List.tail_cons] at h
        exact ih r nodes _ h
      | newline l =>
        simp only [new_current, List.head?_cons, new_consume, List.tail_cons] at h
        exact ih r nodes _ h
      | _ => exact key h

theorem listOn_enough (room : Nat) : ∀ (fuel : Nat) (ts : List Token) (nodes more : List Node),
    parseStatementList fuel (Parser.new ts) nodes = .ret (.ok (nodes ++ more)) → (∀ n ∈ more, listLength n < room) →
    parseStatementListOn room fuel (Parser.new ts) nodes = .ret (.ok (nodes ++ more)) := by
  intro fuel
  induction fuel with
  | zero => intro ts nodes more h _; cases h
  | succ fuel ih =>
    intro ts nodes more h hm
    rw [parseStatementList] at h
    rw [parseStatementListOn]
    cases ts with
    | nil => exact h
    | cons t r =>
      have key : (match (Parser.new (t :: r)).parseStatement with
          | .panic => Run.panic
          | .ret (.error e) => Run.ret (Except.error e)
          | .ret (.ok (node, p)) => parseStatementList fuel p (nodes ++ [node])) = Run.ret (.ok (nodes ++ more)) →
          (match (Parser.new (t :: r)).parseStatementOn room with
          | .panic => Run.panic
          | .ret (.error e) => Run.ret (Except.error e)
          | .ret (.ok (node, p)) => parseStatementListOn room fuel p (nodes ++ [node])) =
            Run.ret (.ok (nodes ++ more)) := by
        intro h
        match e' : (Parser.new (t :: r)).parseStatement with
        | .panic => rw [e'] at h; cases h
        | .ret (.error e) => rw [e'] at h; cases h
        | .ret (.ok (n, p)) =>
          rw [e'] at h
          obtain ⟨ts', rfl, _⟩ := statement_rest _ _ _ e'
          obtain ⟨more', e⟩ := list_grows _ _ _ _ h
          rw [List.append_assoc] at e
          obtain rfl := List.append_cancel_left e
          rw [statementOn_enough room _ _ _ e' (hm n (by simp))]
          have := ih ts' (nodes ++ [n]) more' (by rw [List.append_assoc]; exact h) (fun m hm' => hm m (by simp [hm']))
          rw [List.append_assoc] at this
          exact this
      cases t with
      | singleLineComment s l =>
        simp only [new_current, List.head?_cons, new_consume, List.tail_cons] at h ⊢
        exact ih r nodes more h hm
      | newline l =>
        simp only [new_current, List.head?_cons, new_consume, List.tail_cons] at h ⊢
        exact ih r nodes more h hm
      | _ => exact key h

theorem listOn_room (room : Nat) : ∀ (fuel : Nat) (ts : List Token) (nodes all : List Node),
    parseStatementListOn room fuel (Parser.new ts) nodes = .ret (.ok all) → (∀ n ∈ nodes, listLength n ≤ room) →
    ∀ n ∈ all, listLength n ≤ room := by
  intro fuel
  induction fuel with
  | zero => intro ts nodes all h; cases h
  | succ fuel ih =>
    intro ts nodes all h hn
    rw [parseStatementListOn] at h
    cases ts with
    | nil =>
      cases h
      exact hn
    | cons t r =>
      have key : (match (Parser.new (t :: r)).parseStatementOn room with
          | .panic => Run.panic
          | .ret (.error e) => Run.ret (Except.error e)
          | .ret (.ok (node, p)) => parseStatementListOn room fuel p (nodes ++ [node])) = Run.ret (.ok all) →
          ∀ n ∈ all, listLength n ≤ room := by
        intro h
        match e' : (Parser.new (t :: r)).parseStatementOn room with
        | .panic => rw [e'] at h; cases h
        | .ret (.error e) => rw [e'] at h; cases h
        | .ret (.ok (n, p)) =>
          rw [e'] at h
          have hb : (Parser.new (t :: r)).parseStatement = .ret (.ok (n, p)) := by
            rcases statementOn_same room (t :: r) with e | e
            · rw [e'] at e; cases e
            · rw [← e, e']
          obtain ⟨ts', rfl, _⟩ := statement_rest _ _ _ hb
          refine ih ts' _ _ h ?_
          intro m hm
          rcases List.mem_append.1 hm with hm | hm
          · exact hn m hm
          · rw [List.mem_singleton] at hm
            rw [hm]
            exact statementOn_room room _ _ _ e'
      cases t with
      | singleLineComment s l =>
        simp only [new_current, List.head?_cons, new_consume, List.tail_cons] at h
        exact ih r nodes _ h hn
      | newline l =>
        simp only [new_current, List.head?_cons, new_consume, List.tail_cons] at h
        exact ih r nodes _ h hn
      | _ => exact key h

end Parser

end C8S
