import Verif.Proofs.WorkPasses

/- Helper lemmas for C113: the parser. -/

namespace C8S.Work

open Spec

/-! ### The result -/

theorem consumeToken_run (p : Parser) : (consumeToken p).run = .ret p.consumeToken := rfl

theorem parseIdentifier_run (p : Parser) : (parseIdentifier p).run = .ret p.parseIdentifier := by
  unfold parseIdentifier Parser.parseIdentifier
  rw [run_bind, consumeToken_run, Run.ret_bind]
  obtain ⟨t, q⟩ := p.consumeToken
  cases t with
  | none => rfl
  | some t => cases t <;> rfl

theorem parseLiteral_run (p : Parser) : (parseLiteral p).run = .ret p.parseLiteral := by
  unfold parseLiteral Parser.parseLiteral
  cases p.current with
  | none => rfl
  | some t => cases t <;> rfl

theorem parseLiteralList_run (n : Nat) (p : Parser) (list : List Literal) :
    (parseLiteralList n p list).run = Parser.parseLiteralList n p list := by
  induction n generalizing p list with
  | zero => rfl
  | succ n ih =>
    have key : (do
        let x ← parseLiteral p
        match x with
        | .error e => return .error e
        | .ok (literal, p) =>
          match p.current with
          | some (.comma _) => do
            let (_, p) ← consumeToken p
            parseLiteralList n p (list ++ [literal])
          | _ => return .ok (list ++ [literal], p) : Work (Except ParseError (List Literal × Parser))).run =
        (match p.parseLiteral with
        | .error e => .ret (.error e)
        | .ok (literal, p) =>
          match p.current with
          | some (.comma _) => Parser.parseLiteralList n p.consumeToken.2 (list ++ [literal])
          | _ => .ret (.ok (list ++ [literal], p))) := by
      rw [run_bind, parseLiteral_run, Run.ret_bind]
      cases p.parseLiteral with
      | error e => rfl
      | ok r =>
        obtain ⟨x, q⟩ := r
        simp only []
        cases q.current with
        | none => rfl
        | some t =>
          cases t with
          | comma l => exact ih _ _
          | _ => rfl
    rw [parseLiteralList, Parser.parseLiteralList, tick_bind_run]
    cases p.current with
    | none => exact key
    | some t =>
      cases t with
      | newline l => rfl
      | _ => exact key

theorem parseDirective_run (p : Parser) : (parseDirective p).run = p.parseDirective := by
  unfold parseDirective Parser.parseDirective
  rw [run_bind, consumeToken_run, Run.ret_bind]
  obtain ⟨t, q⟩ := p.consumeToken
  cases t with
  | none => rfl
  | some t =>
    cases t with
    | directiveMarker l =>
      simp only [run_bind, parseIdentifier_run, Run.ret_bind]
      cases q.parseIdentifier with
      | error e => rfl
      | ok r =>
        obtain ⟨⟨id, loc⟩, q⟩ := r
        simp only [run_bind, parseLiteralList_run]
        cases Parser.parseLiteralList (q.remaining + 1) q [] with
        | panic => rfl
        | ret y => cases y <;> rfl
    | _ => rfl

theorem parseLabel_run (p : Parser) : (parseLabel p).run = .ret p.parseLabel := by
  unfold parseLabel Parser.parseLabel
  rw [run_bind, parseIdentifier_run, Run.ret_bind]
  cases p.parseIdentifier with
  | error e => rfl
  | ok r =>
    obtain ⟨⟨id, loc⟩, q⟩ := r
    simp only [run_bind, consumeToken_run, Run.ret_bind]
    obtain ⟨t, q⟩ := q.consumeToken
    cases t with
    | none => rfl
    | some t => cases t <;> rfl

theorem parseField_run (p : Parser) : (parseField p).run = p.parseField := by
  unfold parseField Parser.parseField
  cases p.current with
  | none => rfl
  | some t =>
    cases t with
    | identifier id l =>
      simp only [run_bind, run_free]
      cases Parser.fieldOfIdentifier id <;> rfl
    | _ => rfl

theorem parseFieldList_run (n : Nat) (p : Parser) (list : List Field) :
    (parseFieldList n p list).run = Parser.parseFieldList n p list := by
  induction n generalizing p list with
  | zero => rfl
  | succ n ih =>
    have key : (do
        let x ← parseField p
        match x with
        | .error e => return .error e
        | .ok (literal, p) =>
          match p.current with
          | some (.comma _) => do
            let (_, p) ← consumeToken p
            parseFieldList n p (list ++ [literal])
          | _ => return .ok (list ++ [literal], p) : Work (Except ParseError (List Field × Parser))).run =
        (match p.parseField with
        | .panic => .panic
        | .ret (.error e) => .ret (.error e)
        | .ret (.ok (literal, p)) =>
          match p.current with
          | some (.comma _) => Parser.parseFieldList n p.consumeToken.2 (list ++ [literal])
          | _ => .ret (.ok (list ++ [literal], p))) := by
      rw [run_bind, parseField_run]
      cases p.parseField with
      | panic => rfl
      | ret r =>
        cases r with
        | error e => rfl
        | ok r =>
          obtain ⟨x, q⟩ := r
          simp only [Run.ret_bind]
          cases q.current with
          | none => rfl
          | some t =>
            cases t with
            | comma l => exact ih _ _
            | _ => rfl
    rw [parseFieldList, Parser.parseFieldList, tick_bind_run]
    cases p.current with
    | none => exact key
    | some t =>
      cases t with
      | newline l => rfl
      | singleLineComment c l => rfl
      | _ => exact key

theorem parseInstruction_run (p : Parser) : (parseInstruction p).run = p.parseInstruction := by
  unfold parseInstruction Parser.parseInstruction
  rw [run_bind, parseIdentifier_run, Run.ret_bind]
  cases p.parseIdentifier with
  | error e => rfl
  | ok r =>
    obtain ⟨⟨id, loc⟩, q⟩ := r
    simp only [run_bind, parseFieldList_run]
    cases Parser.parseFieldList (q.remaining + 1) q [] with
    | panic => rfl
    | ret y => cases y <;> rfl

theorem parseStatement_run (p : Parser) : (parseStatement p).run = p.parseStatement := by
  unfold parseStatement Parser.parseStatement
  cases p.current with
  | none => rfl
  | some t =>
    cases t with
    | directiveMarker l => exact parseDirective_run p
    | identifier id l =>
      cases p.next with
      | none => exact parseInstruction_run p
      | some t =>
        cases t with
        | labelMarker l => exact parseLabel_run p
        | _ => exact parseInstruction_run p
    | _ => rfl

theorem parseStatementList_run (n : Nat) (p : Parser) (nodes : List Node) :
    (parseStatementList n p nodes).run = Parser.parseStatementList n p nodes := by
  induction n generalizing p nodes with
  | zero => rfl
  | succ n ih =>
    have key : (do
        let x ← parseStatement p
        match x with
        | .error e => return .error e
        | .ok (node, p) => parseStatementList n p (nodes ++ [node]) : Work (Except ParseError (List Node))).run =
        (match p.parseStatement with
        | .panic => .panic
        | .ret (.error e) => .ret (.error e)
        | .ret (.ok (node, p)) => Parser.parseStatementList n p (nodes ++ [node])) := by
      rw [run_bind, parseStatement_run]
      cases p.parseStatement with
      | panic => rfl
      | ret r =>
        cases r with
        | error e => rfl
        | ok r => exact ih _ _
    rw [parseStatementList, Parser.parseStatementList, tick_bind_run]
    cases p.current with
    | none => rfl
    | some t =>
      cases t with
      | newline l => exact ih _ _
      | singleLineComment c l => exact ih _ _
      | _ => exact key

theorem parse_run (tokens : List Token) : (parse tokens).run = C8S.parse tokens := by
  unfold parse C8S.parse
  rw [tick_bind_run, parseStatementList_run]

/-! ### The steps -/

/-- What there is left to pay for the tokens that are to come. -/
def credit (ts : List Token) : Nat := (ts.map fun t => 3 + weight t).sum

theorem credit_cons (t : Token) (ts : List Token) : credit (t :: ts) = 3 + weight t + credit ts := by
  simp [credit]

/-- A part of the parser stays within a budget, and leaves enough of it for the tokens it does not take. -/
def Pays {α : Type} (w : Work (Except ParseError (α × Parser))) (budget : Nat) : Prop :=
  (∀ e, w.run = .ret (.error e) → w.steps ≤ budget) ∧
  ∀ x p, w.run = .ret (.ok (x, p)) → ∃ ts, p = Parser.new ts ∧ w.steps + credit ts ≤ budget

theorem pays_error {α : Type} (e : ParseError) (budget : Nat) :
    Pays (pure (.error e) : Work (Except ParseError (α × Parser))) budget :=
  ⟨fun _ _ => Nat.zero_le _, fun _ _ h => nomatch h⟩

theorem pays_ok {α : Type} (x : α) (ts : List Token) {budget : Nat} (h : credit ts ≤ budget) :
    Pays (pure (.ok (x, Parser.new ts)) : Work (Except ParseError (α × Parser))) budget := by
  refine ⟨?_, ?_⟩
  · intro _ h
    cases h
  · intro _ _ h
    cases h
    exact ⟨ts, rfl, by simpa using h⟩

theorem pays_tick {α : Type} {w : Work (Except ParseError (α × Parser))} {n budget budget' : Nat}
    (h : Pays w budget') (hn : n + budget' ≤ budget) : Pays (do tick n; w) budget := by
  refine ⟨fun e he => ?_, fun x p hp => ?_⟩
  · rw [tick_bind_run] at he
    have := h.1 e he
    rw [tick_bind_steps]
    omega
  · rw [tick_bind_run] at hp
    obtain ⟨r, h1, h2⟩ := h.2 x p hp
    refine ⟨r, h1, ?_⟩
    rw [tick_bind_steps]
    omega

theorem pays_consume {α : Type} {p : Parser} {f : Option Token × Parser → Work (Except ParseError (α × Parser))} {budget budget' : Nat}
    (h : Pays (f p.consumeToken) budget') (hn : 1 + budget' ≤ budget) : Pays (consumeToken p >>= f) budget := by
  have e1 : (consumeToken p >>= f).run = (f p.consumeToken).run := by rw [run_bind, consumeToken_run, Run.ret_bind]
  have e2 : (consumeToken p >>= f).steps = 1 + (f p.consumeToken).steps := by rw [steps_bind (consumeToken_run p)]; rfl
  refine ⟨fun e he => ?_, fun x q hp => ?_⟩
  · rw [e1] at he
    have := h.1 e he
    omega
  · rw [e1] at hp
    obtain ⟨r, h1, h2⟩ := h.2 x q hp
    exact ⟨r, h1, by omega⟩

theorem pays_bind {α β : Type} {w : Work (Except ParseError (α × Parser))}
    {f : Except ParseError (α × Parser) → Work (Except ParseError (β × Parser))} {budget budget' extra : Nat}
    (h : Pays w budget') (hle : budget' + extra ≤ budget) (herr : ∀ e, f (.error e) = pure (.error e))
    (hf : ∀ x ts, Pays (f (.ok (x, Parser.new ts))) (credit ts + extra)) :
    Pays (w >>= f) budget := by
  refine ⟨fun e he => ?_, fun x p hp => ?_⟩
  · obtain ⟨r, h1, h2, h3⟩ := bind_inv he
    rw [h3]
    cases r with
    | error e' =>
      have := h.1 e' h1
      rw [herr]
      simp only [steps_pure]
      omega
    | ok r =>
      obtain ⟨y, q⟩ := r
      obtain ⟨ts', rfl, h4⟩ := h.2 y q h1
      have := (hf y ts').1 e h2
      omega
  · obtain ⟨r, h1, h2, h3⟩ := bind_inv hp
    rw [h3]
    cases r with
    | error e' => rw [herr] at h2; cases h2
    | ok r =>
      obtain ⟨y, q⟩ := r
      obtain ⟨ts', rfl, h4⟩ := h.2 y q h1
      obtain ⟨ts'', h5, h6⟩ := (hf y ts').2 x p h2
      exact ⟨ts'', h5, by omega⟩

theorem parseIdentifier_pays (t : Token) (r : List Token) : Pays (parseIdentifier (Parser.new (t :: r))) (credit r + 1) := by
  cases t with
  | identifier id l => exact pays_consume (pays_ok (id, l) r (Nat.le_refl _)) (by omega)
  | _ => exact pays_consume (pays_error _ 0) (by omega)

theorem parseLiteral_pays (ts : List Token) : Pays (parseLiteral (Parser.new ts)) (credit ts) := by
  cases ts with
  | nil => exact pays_error _ _
  | cons t r =>
    have e1 : credit (t :: r) = _ := credit_cons t r
    cases t with
    | stringLiteral b l => exact pays_consume (pays_ok _ r (Nat.le_refl _)) (by omega)
    | numericLiteral b l => exact pays_consume (pays_ok _ r (Nat.le_refl _)) (by omega)
    | _ => exact pays_error _ _

theorem parseField_pays (ts : List Token) : Pays (parseField (Parser.new ts)) (credit ts) := by
  cases ts with
  | nil => exact pays_error _ _
  | cons t r =>
    have e1 : credit (t :: r) = _ := credit_cons t r
    cases t with
    | identifier id l =>
      have hw : weight (.identifier id l) = byteLen id := rfl
      refine pays_tick (budget' := credit r + 1) ?_ (by omega)
      cases hf : Parser.fieldOfIdentifier id with
      | panic => exact ⟨fun _ h => (nomatch h), fun _ _ h => (nomatch h)⟩
      | ret f =>
        refine ⟨?_, ?_⟩
        · intro e h
          cases h
        · intro x p h
          cases h
          refine ⟨r, rfl, ?_⟩
          show 0 + (1 + 0) + credit r ≤ _
          omega
    | numericLiteral b l => exact pays_consume (pays_ok _ r (Nat.le_refl _)) (by omega)
    | _ => exact pays_error _ _

theorem parseLiteralList_pays (n : Nat) (ts : List Token) (list : List Literal) :
    Pays (parseLiteralList n (Parser.new ts) list) (credit ts + 1) := by
  induction n generalizing ts list with
  | zero => exact ⟨fun _ h => (nomatch h), fun _ _ h => (nomatch h)⟩
  | succ n ih =>
    have key : Pays (do
        let x ← parseLiteral (Parser.new ts)
        match x with
        | .error e => return .error e
        | .ok (literal, p) =>
          match p.current with
          | some (.comma _) => do
            let (_, p) ← consumeToken p
            parseLiteralList n p (list ++ [literal])
          | _ => return .ok (list ++ [literal], p) : Work (Except ParseError (List Literal × Parser))) (credit ts) := by
      refine pays_bind (extra := 0) (parseLiteral_pays ts) (Nat.le_refl _) (fun _ => rfl) ?_
      intro x ts'
      cases ts' with
      | nil => exact pays_ok _ [] (Nat.le_refl _)
      | cons t r =>
        have e1 : credit (t :: r) = _ := credit_cons t r
        cases t with
        | comma l => exact pays_consume (ih r _) (by omega)
        | _ => exact pays_ok _ (_ :: r) (Nat.le_refl _)
    rw [parseLiteralList]
    refine pays_tick (budget' := credit ts) ?_ (by omega)
    cases ts with
    | nil => exact key
    | cons t r =>
      cases t with
      | newline l => exact pays_ok _ (_ :: r) (Nat.le_refl _)
      | _ => exact key

theorem parseFieldList_pays (n : Nat) (ts : List Token) (list : List Field) :
    Pays (parseFieldList n (Parser.new ts) list) (credit ts + 1) := by
  induction n generalizing ts list with
  | zero => exact ⟨fun _ h => (nomatch h), fun _ _ h => (nomatch h)⟩
  | succ n ih =>
    have key : Pays (do
        let x ← parseField (Parser.new ts)
        match x with
        | .error e => return .error e
        | .ok (literal, p) =>
          match p.current with
          | some (.comma _) => do
            let (_, p) ← consumeToken p
            parseFieldList n p (list ++ [literal])
          | _ => return .ok (list ++ [literal], p) : Work (Except ParseError (List Field × Parser))) (credit ts) := by
      refine pays_bind (extra := 0) (parseField_pays ts) (Nat.le_refl _) (fun _ => rfl) ?_
      intro x ts'
      cases ts' with
      | nil => exact pays_ok _ [] (Nat.le_refl _)
      | cons t r =>
        have e1 : credit (t :: r) = _ := credit_cons t r
        cases t with
        | comma l => exact pays_consume (ih r _) (by omega)
        | _ => exact pays_ok _ (_ :: r) (Nat.le_refl _)
    rw [parseFieldList]
    refine pays_tick (budget' := credit ts) ?_ (by omega)
    cases ts with
    | nil => exact key
    | cons t r =>
      cases t with
      | newline l => exact pays_ok _ (_ :: r) (Nat.le_refl _)
      | singleLineComment c l => exact pays_ok _ (_ :: r) (Nat.le_refl _)
      | _ => exact key

theorem instruction_pays (t : Token) (r : List Token) : Pays (parseInstruction (Parser.new (t :: r))) (credit r + 2) := by
  refine pays_bind (extra := 1) (parseIdentifier_pays t r) (Nat.le_refl _) (fun _ => rfl) ?_
  intro x ts
  obtain ⟨id, loc⟩ := x
  refine pays_bind (extra := 0) (parseFieldList_pays _ ts []) (Nat.le_refl _) (fun _ => rfl) ?_
  intro x ts'
  exact pays_ok _ ts' (Nat.le_refl _)

/-- A statement leaves one step for the loop. -/
theorem parseStatement_pays (t : Token) (r : List Token) : Pays (parseStatement (Parser.new (t :: r))) (credit r + 2) := by
  cases t with
  | directiveMarker l =>
    refine pays_consume (budget' := credit r + 1) ?_ (by omega)
    cases r with
    | nil => exact ⟨fun _ _ => Nat.le_trans (Nat.le_of_eq rfl) (Nat.le_add_left 1 _), fun _ _ h => (nomatch h)⟩
    | cons u r' =>
      have e1 := credit_cons u r'
      refine pays_bind (extra := 1) (parseIdentifier_pays u r') (by omega) (fun _ => rfl) ?_
      intro x ts
      obtain ⟨id, loc⟩ := x
      refine pays_bind (extra := 0) (parseLiteralList_pays _ ts []) (Nat.le_refl _) (fun _ => rfl) ?_
      intro y ts'
      exact pays_ok _ ts' (Nat.le_refl _)
  | identifier id l =>
    cases r with
    | nil => exact instruction_pays _ []
    | cons u r' =>
      have e1 := credit_cons u r'
      cases u with
      | labelMarker l' =>
        refine ⟨fun _ h => (nomatch h), fun x p h => ?_⟩
        cases h
        refine ⟨r', rfl, ?_⟩
        show 1 + (1 + 0) + credit r' ≤ _
        omega
      | _ => exact instruction_pays _ _
  | _ => exact pays_error _ _

theorem parseStatementList_steps (n : Nat) (ts : List Token) (nodes : List Node) (out : Except ParseError (List Node))
    (h : (parseStatementList n (Parser.new ts) nodes).run = .ret out) :
    (parseStatementList n (Parser.new ts) nodes).steps ≤ credit ts + 1 := by
  induction n generalizing ts nodes with
  | zero => cases h
  | succ n ih =>
    rw [parseStatementList, tick_bind_run] at h
    rw [parseStatementList, tick_bind_steps]
    cases ts with
    | nil => exact Nat.le_add_left _ _
    | cons t r =>
      have e1 := credit_cons t r
      have key : ∀ out, (do
          let x ← parseStatement (Parser.new (t :: r))
          match x with
          | .error e => return .error e
          | .ok (node, p) => parseStatementList n p (nodes ++ [node]) : Work (Except ParseError (List Node))).run = .ret out →
          (∀ ts nodes, (parseStatementList n (Parser.new ts) nodes).run = .ret out →
            (parseStatementList n (Parser.new ts) nodes).steps ≤ credit ts + 1) →
          1 + (do
          let x ← parseStatement (Parser.new (t :: r))
          match x with
          | .error e => return .error e
          | .ok (node, p) => parseStatementList n p (nodes ++ [node]) : Work (Except ParseError (List Node))).steps ≤
            credit (t :: r) + 1 := by
        intro out h ih
        obtain ⟨x, h1, h2, h3⟩ := bind_inv h
        rw [h3]
        obtain ⟨g1, g2⟩ := parseStatement_pays t r
        cases x with
        | error e =>
          have := g1 e h1
          simp only [steps_pure]
          omega
        | ok x =>
          obtain ⟨node, p⟩ := x
          obtain ⟨ts', rfl, h5⟩ := g2 node p h1
          have := ih ts' _ h2
          simp only
          omega
      have skip : ∀ out nodes, (do
          let (_, p) ← consumeToken (Parser.new (t :: r))
          parseStatementList n p nodes : Work (Except ParseError (List Node))).run = .ret out →
          (∀ ts nodes, (parseStatementList n (Parser.new ts) nodes).run = .ret out →
            (parseStatementList n (Parser.new ts) nodes).steps ≤ credit ts + 1) →
          1 + (do
          let (_, p) ← consumeToken (Parser.new (t :: r))
          parseStatementList n p nodes : Work (Except ParseError (List Node))).steps ≤ credit (t :: r) + 1 := by
        intro out nodes h ih
        rw [run_bind, consumeToken_run, Run.ret_bind] at h
        rw [steps_bind (consumeToken_run _)]
        have : (parseStatementList n (Parser.new r) nodes).steps ≤ credit r + 1 := ih r nodes h
        show 1 + (1 + (parseStatementList n (Parser.new r) nodes).steps) ≤ _
        omega
      cases t with
      | newline l => exact skip out nodes h fun ts ns => ih ts ns
      | singleLineComment c l => exact skip out nodes h fun ts ns => ih ts ns
      | _ => exact key out h fun ts ns => ih ts ns

theorem credit_eq (ts : List Token) : credit ts = 3 * ts.length + (ts.map weight).sum := by
  induction ts with
  | nil => rfl
  | cons t r ih =>
    rw [credit_cons, ih]
    simp only [List.length_cons, List.map_cons, List.sum_cons]
    omega

theorem parse_steps (ts : List Token) : (parse ts).steps ≤ 3 * ts.length + (ts.map weight).sum + 3 := by
  unfold parse
  rw [tick_bind_steps]
  cases h : (parseStatementList (ts.length + 1) (Parser.new ts) []).run with
  | panic =>
    rw [parseStatementList_run] at h
    obtain ⟨out, ho⟩ := C10_total ts
    have : C8S.parse ts = .panic := h
    rw [this] at ho
    cases ho
  | ret out =>
    have := parseStatementList_steps _ ts [] out h
    rw [credit_eq] at this
    omega

/-- The bytes of a text pay for the names, the strings and the numbers in it. -/
theorem weight_scan [Target] {file text : Str} {tokens : List Token} (hs : C8S.scan file text = .ret tokens) :
    (tokens.map weight).sum ≤ (utf8 text).length ∧ tokens.length ≤ (utf8 text).length := by
  obtain ⟨pieces, tail, hP, _⟩ := C04_locations file text tokens hs
  have h2 := weight_text hP.count hP.written hP.nonempty
  have h3 := C86_tokens file text tokens hs
  have h4 := length_le_byteLen text
  rw [utf8_length]
  have h5 : byteLen (pieces.map fun p => p.1 ++ p.2).flatten ≤ byteLen text := by
    conv => rhs; rw [hP.text_eq, byteLen_append]
    omega
  omega

/-- Sections that all begin at the same address. -/
def stacked (k : Nat) : List Node :=
  (List.replicate k [Node.directive ⟨[], 0, 0, 0⟩ "org".toList [.numeric 0], .directive ⟨[], 0, 0, 0⟩ "db".toList [.numeric 1]]).flatten

theorem stacked_define (k : Nat) (current : U12) (labels : LabelMap) (h : current.toNat ≤ 1) :
    C8S.defineLabelsLoop (stacked k) current labels = .ok labels := by
  induction k generalizing current with
  | zero => rfl
  | succ k ih =>
    have : C8S.defineLabelsLoop (stacked (k + 1)) current labels = C8S.defineLabelsLoop (stacked k) 1 labels := by
      have hc : current = 0 ∨ current = 1 := by
        have : current.toNat = 0 ∨ current.toNat = 1 := by omega
        rcases this with h | h
        · exact .inl (BitVec.eq_of_toNat_eq h)
        · exact .inr (BitVec.eq_of_toNat_eq h)
      rcases hc with rfl | rfl <;> rfl
    rw [this]
    exact ih 1 (by decide)

theorem stacked_emit (k : Nat) (labels : LabelMap) (current : DataRange) (ranges : List DataRange) (h : current.data ≠ []) :
    C8S.emitLoop (stacked k) labels current ranges = .ret (.ok (ranges ++ current :: List.replicate k ⟨0, [1]⟩)) := by
  induction k generalizing current ranges with
  | zero =>
    have : current.len > 0 := List.length_pos_iff.2 h
    show Run.ret (Except.ok (if current.len > 0 then ranges ++ [current] else ranges)) = _
    rw [if_pos this]
    rfl
  | succ k ih =>
    have hl : current.len > 0 := List.length_pos_iff.2 h
    have : C8S.emitLoop (stacked (k + 1)) labels current ranges = C8S.emitLoop (stacked k) labels ⟨0, [1]⟩ (if current.len > 0 then ranges ++ [current] else ranges) := rfl
    rw [this, if_pos hl, ih _ _ (by simp), List.append_assoc]
    rfl

theorem stacked_assemble (k : Nat) : C8S.assemble (stacked k) = .ret (.ok (List.replicate k ⟨0, [1]⟩)) := by
  unfold C8S.assemble C8S.defineLabels
  rw [stacked_define k 0 [] (by decide)]
  cases k with
  | zero => rfl
  | succ k =>
    have : C8S.emitLoop (stacked (k + 1)) [] (DataRange.new 0) [] = C8S.emitLoop (stacked k) [] ⟨0, [1]⟩ [] := rfl
    show C8S.emitLoop (stacked (k + 1)) [] (DataRange.new 0) [] = _
    rw [this, stacked_emit k [] _ [] (by simp)]
    rfl

theorem stacked_overlaps (k : Nat) : 2 * (C8S.findOverlappingRanges (List.replicate k ⟨0, [1]⟩)).length = k * (k - 1) := by
  rw [findOverlapping_eq_pairs]
  induction k with
  | zero => rfl
  | succ k ih =>
    have h1 : DataRange.intersects ⟨0, [1]⟩ ⟨0, [1]⟩ = true := by decide
    have h2 : pairsWhere DataRange.intersects (List.replicate (k + 1) ⟨0, [1]⟩) =
        (((List.replicate k (⟨0, [1]⟩ : DataRange)).filter (DataRange.intersects ⟨0, [1]⟩)).map fun b => ((⟨0, [1]⟩ : DataRange), b)) ++
        pairsWhere DataRange.intersects (List.replicate k ⟨0, [1]⟩) := rfl
    rw [h2, List.filter_replicate_of_pos h1, List.length_append, List.length_map, List.length_replicate, Nat.mul_add, ih]
    cases k with
    | zero => rfl
    | succ k => simp only [Nat.add_sub_cancel, Nat.mul_add, Nat.add_mul]; omega

end C8S.Work
