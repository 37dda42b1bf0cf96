import Verif.Model.Stream
import Verif.Spec.Stream
import Verif.Proofs.ParseList

/- The parser over an iterator does what the parser over the list of its tokens does. -/

namespace C8S.Stream

open Spec Parser

variable {σ : Type} {next : σ → Run (Option Token × σ)}

theorem yields_next {s : σ} {ts : List Token} (h : Yields next s ts) :
    ∃ s', next s = .ret (ts.head?, s') ∧ Yields next s' ts.tail := by
  have h1 := h 1
  cases e : next s with
  | panic => simp [pulls, e] at h1
  | ret p =>
    obtain ⟨t, s'⟩ := p
    have key : ∀ n, ∃ r, pulls next n s' = .ret r ∧ t :: r = (ts.map some ++ List.replicate (n + 1) none).take (n + 1) := by
      intro n
      have := h (n + 1)
      rw [pulls, e] at this
      simp only [Run.ret_bind] at this
      cases e' : pulls next n s' with
      | panic => rw [e'] at this; simp at this
      | ret r =>
        rw [e'] at this
        simp only [Run.ret_bind, Run.pure_eq, Run.ret.injEq] at this
        exact ⟨r, rfl, this⟩
    cases ts with
    | nil =>
      obtain ⟨r, _, h2⟩ := key 0
      simp at h2
      refine ⟨s', by rw [h2.1]; rfl, ?_⟩
      intro n
      obtain ⟨r, h1, h2⟩ := key n
      rw [h1]
      simp [List.replicate_succ] at h2
      simp [h2.2]
    | cons t' ts =>
      obtain ⟨r, _, h2⟩ := key 0
      simp at h2
      refine ⟨s', by rw [h2.1]; rfl, ?_⟩
      intro n
      obtain ⟨r, h1, h2⟩ := key n
      rw [h1]
      simp only [List.map_cons, List.cons_append, List.take_succ_cons, List.cons.injEq] at h2
      rw [h2.2, List.tail_cons, List.replicate_succ', ← List.append_assoc, List.take_append_of_le_length]
      simp

/-- The parser has these tokens left to consume. -/
structure At (next : σ → Run (Option Token × σ)) (p : Stream σ) (ts : List Token) : Prop where
  current : p.current = ts.head?
  following : p.next = ts.tail.head?
  yields : Yields next p.scanner ts.tail.tail

theorem new_at {s : σ} {ts : List Token} (h : Yields next s ts) : ∃ p, new next s = .ret p ∧ At next p ts := by
  obtain ⟨s1, e1, h1⟩ := yields_next h
  obtain ⟨s2, e2, h2⟩ := yields_next h1
  exact ⟨⟨s2, ts.head?, ts.tail.head?⟩, by simp [new, e1, e2], ⟨rfl, rfl, h2⟩⟩

theorem consume_at {p : Stream σ} {ts : List Token} (h : At next p ts) :
    ∃ p', consumeToken next p = .ret (ts.head?, p') ∧ At next p' ts.tail := by
  obtain ⟨s1, e1, h1⟩ := yields_next h.yields
  exact ⟨⟨s1, p.next, ts.tail.tail.head?⟩, by simp [consumeToken, e1, h.current], ⟨h.following, rfl, h1⟩⟩

/-- A result of the parser over an iterator matches one over lists. -/
def Match {α : Type} (next : σ → Run (Option Token × σ)) (list : List α) (r : Run (Except ParseError (List α × Stream σ)))
    (q : Except ParseError (List α × List Token)) : Prop :=
  match q with
  | .error e => r = .ret (.error e)
  | .ok (xs, rest) => ∃ p, r = .ret (.ok (list ++ xs, p)) ∧ At next p rest

/-- The step common to both kinds of lists: an item has been read. -/
theorem match_item {α : Type} {item : Token → Option α} {stop : Token → Bool} {exp : List Str} {t : Token} {r : List Token}
    {list : List α} {x : α} {p : Stream σ} {go : Stream σ → Run (Except ParseError (List α × Stream σ))}
    (hs : stop t = false) (hi : item t = some x) (hp : At next p r)
    (ih : ∀ (p : Stream σ) (r' : List Token), r'.length < r.length → At next p r' →
      Match next (list ++ [x]) (go p) (itemList item stop exp r')) :
    Match next list
      (match p.current with
        | some (.comma _) => do
          let (_, p) ← consumeToken next p
          go p
        | _ => return .ok (list ++ [x], p))
      (itemList item stop exp (t :: r)) := by
  have none_comma : (∀ l r', r ≠ .comma l :: r') → Match next list
      (match p.current with
        | some (.comma _) => do
          let (_, p) ← consumeToken next p
          go p
        | _ => return .ok (list ++ [x], p))
      (itemList item stop exp (t :: r)) := by
    intro hn
    rw [itemList.eq_def]
    simp only [hs, hi, Bool.false_eq_true, if_false]
    rw [hp.current]
    cases r with
    | nil => exact ⟨p, rfl, hp⟩
    | cons t' r' =>
      cases t' with
      | comma l => exact (hn _ _ rfl).elim
      | _ => exact ⟨p, rfl, hp⟩
  by_cases hc : ∃ l r', r = .comma l :: r'
  · obtain ⟨l, r', rfl⟩ := hc
    rw [itemList.eq_def]
    simp only [hs, hi, Bool.false_eq_true, if_false]
    rw [hp.current]
    obtain ⟨p', e, h'⟩ := consume_at hp
    simp only [List.head?_cons, e, Run.ret_bind]
    have := ih p' r' (by simp) h'
    cases e' : itemList item stop exp r' with
    | error er =>
      rw [e'] at this
      exact this
    | ok q =>
      obtain ⟨xs, rest⟩ := q
      rw [e'] at this
      obtain ⟨p'', e1, h1⟩ := this
      exact ⟨p'', by rw [e1]; simp, h1⟩
  · exact none_comma (fun l r' e => hc ⟨l, r', e⟩)

theorem literalList_at (n : Nat) : ∀ (p : Stream σ) (ts : List Token) (list : List Literal), ts.length < n → At next p ts →
    Match next list (parseLiteralList next n p list) (itemList litItem litStop litExp ts) := by
  induction n with
  | zero => intro p ts list h; omega
  | succ n ih =>
    intro p ts list h hp
    cases ts with
    | nil =>
      simp only [parseLiteralList, parseLiteral, hp.current]
      rfl
    | cons t r =>
      simp only [List.length_cons] at h
      obtain ⟨p', e, h'⟩ := consume_at hp
      cases t with
      | newline l => exact ⟨p, by simp [parseLiteralList, hp.current], hp⟩
      | stringLiteral s l =>
        simp only [parseLiteralList, parseLiteral, hp.current, List.head?_cons, e, Run.ret_bind, Run.pure_eq]
        exact match_item (item := litItem) (x := (Literal.string s))
          (go := fun p => parseLiteralList next n p (list ++ [(Literal.string s)])) rfl rfl h'
          (fun p r' hl h => ih p r' _ (by omega) h)
      | numericLiteral s l =>
        simp only [parseLiteralList, parseLiteral, hp.current, List.head?_cons, e, Run.ret_bind, Run.pure_eq]
        exact match_item (item := litItem) (x := (Literal.numeric s))
          (go := fun p => parseLiteralList next n p (list ++ [(Literal.numeric s)])) rfl rfl h'
          (fun p r' hl h => ih p r' _ (by omega) h)
      | _ =>
        simp only [parseLiteralList, parseLiteral, hp.current]
        rfl

theorem fieldList_at (n : Nat) : ∀ (p : Stream σ) (ts : List Token) (list : List Field), ts.length < n → At next p ts →
    Match next list (parseFieldList next n p list) (itemList fieldItem fieldStop fieldExp ts) := by
  induction n with
  | zero => intro p ts list h; omega
  | succ n ih =>
    intro p ts list h hp
    cases ts with
    | nil =>
      simp only [parseFieldList, parseField, hp.current]
      rfl
    | cons t r =>
      simp only [List.length_cons] at h
      obtain ⟨p', e, h'⟩ := consume_at hp
      cases t with
      | newline l => exact ⟨p, by simp [parseFieldList, hp.current], hp⟩
      | singleLineComment s l => exact ⟨p, by simp [parseFieldList, hp.current], hp⟩
      | identifier s l =>
        obtain ⟨f, hf, _⟩ := fieldOfIdentifier_ret s
        simp only [parseFieldList, parseField, hp.current, List.head?_cons, e, hf, Run.ret_bind, Run.pure_eq]
        exact match_item (item := fieldItem) (x := f) (go := fun p => parseFieldList next n p (list ++ [f])) rfl
          (by simp [fieldItem, hf]) h' (fun p r' hl h => ih p r' _ (by omega) h)
      | numericLiteral s l =>
        simp only [parseFieldList, parseField, hp.current, List.head?_cons, e, Run.ret_bind, Run.pure_eq]
        exact match_item (item := fieldItem) (x := (Field.numericLiteral (BitVec.ofNat 12 s)))
          (go := fun p => parseFieldList next n p (list ++ [(Field.numericLiteral (BitVec.ofNat 12 s))])) rfl rfl h'
          (fun p r' hl h => ih p r' _ (by omega) h)
      | _ =>
        simp only [parseFieldList, parseField, hp.current]
        rfl

theorem instruction_at (n : Nat) (s : Str) (l : Loc) (r : List Token) (p : Stream σ) (hn : r.length < n)
    (hp : At next p (.identifier s l :: r)) :
    match itemList fieldItem fieldStop fieldExp r with
    | .error e => parseInstruction next n p = .ret (.error e)
    | .ok (fs, rest) => ∃ p', parseInstruction next n p = .ret (.ok (.instruction l s fs, p')) ∧ At next p' rest := by
  obtain ⟨p', e, h'⟩ := consume_at hp
  have := fieldList_at n p' r [] hn h'
  cases hi : itemList fieldItem fieldStop fieldExp r with
  | error er =>
    rw [hi] at this
    simp only [Match] at this
    simp only [parseInstruction, parseIdentifier, e, List.head?_cons, Run.ret_bind, Run.pure_eq, this]
  | ok q =>
    obtain ⟨xs, rest⟩ := q
    rw [hi] at this
    obtain ⟨p'', e1, h1⟩ := this
    refine ⟨p'', ?_, h1⟩
    simp only [parseInstruction, parseIdentifier, e, List.head?_cons, Run.ret_bind, Run.pure_eq, e1, List.nil_append]

theorem directive_at (n : Nat) (s : Str) (l l' : Loc) (r : List Token) (p : Stream σ) (hn : r.length < n)
    (hp : At next p (.directiveMarker l' :: .identifier s l :: r)) :
    match itemList litItem litStop litExp r with
    | .error e => parseDirective next n p = .ret (.error e)
    | .ok (xs, rest) => ∃ p', parseDirective next n p = .ret (.ok (.directive l s xs, p')) ∧ At next p' rest := by
  obtain ⟨p1, e0, h0⟩ := consume_at hp
  obtain ⟨p', e, h'⟩ := consume_at h0
  have := literalList_at n p' r [] hn h'
  cases hi : itemList litItem litStop litExp r with
  | error er =>
    rw [hi] at this
    simp only [Match] at this
    simp only [parseDirective, parseIdentifier, e0, e, List.head?_cons, List.tail_cons, Run.ret_bind, Run.pure_eq, this]
  | ok q =>
    obtain ⟨xs, rest⟩ := q
    rw [hi] at this
    obtain ⟨p'', e1, h1⟩ := this
    refine ⟨p'', ?_, h1⟩
    simp only [parseDirective, parseIdentifier, e0, e, List.head?_cons, List.tail_cons, Run.ret_bind, Run.pure_eq, e1,
      List.nil_append]

theorem list_at (n : Nat) : ∀ (p : Stream σ) (ts : List Token) (nodes : List Node), ts.length < n → At next p ts →
    ∃ out, ParseOutcome ts out ∧ parseStatementList next n p nodes = .ret (out.map (nodes ++ ·)) := by
  induction n with
  | zero => intro p ts nodes h; omega
  | succ n ih =>
    intro p ts nodes h hp
    cases ts with
    | nil => exact ⟨.ok [], .empty, by simp [parseStatementList, hp.current, Except.map]⟩
    | cons t r =>
      simp only [List.length_cons] at h
      obtain ⟨p', e, h'⟩ := consume_at hp
      simp only [List.tail_cons, List.head?_cons] at h' e
      have bad : ∀ (hb : isBlankTok t = false) (hs : starts t = false)
          (hm : parseStatementList next (n + 1) p nodes = .ret (.error (.unexpectedToken stmtExp t))),
          ∃ out, ParseOutcome (t :: r) out ∧
            parseStatementList next (n + 1) p nodes = .ret (out.map (nodes ++ ·)) :=
        fun hb hs hm => ⟨_, .statement hb hs, by rw [hm]; rfl⟩
      cases t with
      | newline l =>
        obtain ⟨out, h1, h2⟩ := ih p' r nodes (by omega) h'
        refine ⟨out, .blank rfl h1, ?_⟩
        simp only [parseStatementList, hp.current, List.head?_cons, e, Run.ret_bind]
        exact h2
      | singleLineComment s l =>
        obtain ⟨out, h1, h2⟩ := ih p' r nodes (by omega) h'
        refine ⟨out, .blank rfl h1, ?_⟩
        simp only [parseStatementList, hp.current, List.head?_cons, e, Run.ret_bind]
        exact h2
      | directiveMarker l =>
        simp only [parseStatementList, hp.current, List.head?_cons, parseStatement]
        cases r with
        | nil =>
          obtain ⟨p2, e2, h2⟩ := consume_at h'
          refine ⟨_, .directiveEnd, ?_⟩
          simp only [parseDirective, parseIdentifier, e, e2, Run.ret_bind]
          rfl
        | cons t' r =>
          cases t' with
          | identifier s l' =>
            have := directive_at n s l' l r p (by simp at h; omega) hp
            cases hi : itemList litItem litStop litExp r with
            | error er =>
              rw [hi] at this
              refine ⟨_, .directiveError hi, ?_⟩
              simp only at this
              rw [this]
              rfl
            | ok q =>
              obtain ⟨xs, rest⟩ := q
              rw [hi] at this
              obtain ⟨p2, e2, h2⟩ := this
              have := itemList_length hi
              simp only [List.length_cons] at h
              obtain ⟨out, h3, h4⟩ := ih p2 rest (nodes ++ [.directive l' s xs]) (by omega) h2
              refine ⟨_, .directive hi h3, ?_⟩
              rw [e2]
              simp only [Run.ret_bind]
              rw [h4]
              cases out <;> simp [Except.map]
          | _ =>
            obtain ⟨p2, e2, h2⟩ := consume_at h'
            refine ⟨_, .directiveName rfl, ?_⟩
            simp only [parseDirective, parseIdentifier, e, e2, Run.ret_bind]
            rfl
      | identifier s l =>
        simp only [parseStatementList, hp.current, List.head?_cons]
        have inst : ¬ StartsMarker r → parseStatement next n p = parseInstruction next n p := by
          intro hn
          simp only [parseStatement, hp.current, List.head?_cons, hp.following, List.tail_cons]
          cases r with
          | nil => rfl
          | cons t' r =>
            cases t' with
            | labelMarker l' => exact (hn ⟨l', r, rfl⟩).elim
            | _ => rfl
        by_cases hm : StartsMarker r
        · obtain ⟨l', r', rfl⟩ := hm
          simp only [List.length_cons] at h
          obtain ⟨p2, e2, h2⟩ := consume_at h'
          obtain ⟨out, h3, h4⟩ := ih p2 r' (nodes ++ [.label l s]) (by omega) h2
          refine ⟨_, .label h3, ?_⟩
          simp only [parseStatement, hp.current, List.head?_cons, hp.following, List.tail_cons, parseLabel, parseIdentifier, e,
            e2, Run.ret_bind, Run.pure_eq]
          rw [h4]
          cases out <;> simp [Except.map]
        · rw [inst hm]
          have := instruction_at n s l r p (by omega) hp
          cases hi : itemList fieldItem fieldStop fieldExp r with
          | error er =>
            rw [hi] at this
            refine ⟨_, .instructionError hm hi, ?_⟩
            simp only at this
            rw [this]
            rfl
          | ok q =>
            obtain ⟨xs, rest⟩ := q
            rw [hi] at this
            obtain ⟨p2, e2, h2⟩ := this
            have := itemList_length hi
            obtain ⟨out, h3, h4⟩ := ih p2 rest (nodes ++ [.instruction l s xs]) (by omega) h2
            refine ⟨_, .instruction hm hi h3, ?_⟩
            rw [e2]
            simp only [Run.ret_bind]
            rw [h4]
            cases out <;> simp [Except.map]
      | _ =>
        refine bad rfl rfl ?_
        simp only [parseStatementList, hp.current, List.head?_cons, parseStatement]
        rfl

theorem parseStream_eq (s : σ) (ts : List Token) (fuel : Nat) (h : Yields next s ts) (hf : ts.length < fuel) :
    parseStream next fuel s = parse ts := by
  obtain ⟨p, e, hp⟩ := new_at h
  obtain ⟨out, h1, h2⟩ := list_at fuel p ts [] hf hp
  obtain ⟨out', h3, h4⟩ := outcome_exists ts
  cases outcome_unique h1 h3
  rw [parseStream, e, h4]
  simp only [Run.ret_bind]
  rw [h2]
  cases out <;> simp [Except.map]

end C8S.Stream
