import Verif.Proofs.Operand
import Verif.Spec.Grammar

/- The parser as functions on token lists. -/

namespace C8S

open Spec Parser

/-! ### The two-token window -/

@[simp] theorem new_current (ts : List Token) : (Parser.new ts).current = ts.head? := rfl
@[simp] theorem new_next (ts : List Token) : (Parser.new ts).next = ts.tail.head? := rfl

@[simp] theorem new_consume (ts : List Token) : (Parser.new ts).consumeToken = (ts.head?, Parser.new ts.tail) := by
  cases ts with
  | nil => rfl
  | cons a ts => cases ts <;> rfl

theorem new_remaining (ts : List Token) : (Parser.new ts).remaining = ts.length := by
  unfold Parser.remaining Parser.new
  cases ts with
  | nil => rfl
  | cons a ts =>
    cases ts with
    | nil => rfl
    | cons b ts =>
      simp
      omega

/-! ### Lists of items -/

/-- Both kinds of lists: `item` reads an item, `stop` ends an open list, `exp` is what is expected. -/
def itemList {α : Type} (item : Token → Option α) (stop : Token → Bool) (exp : List Str) :
    List Token → Except ParseError (List α × List Token)
  | [] => .error (.unexpectedEndOfFile exp)
  | t :: r =>
    if stop t then .ok ([], t :: r)
    else
      match item t with
      | none => .error (.unexpectedToken exp t)
      | some x =>
        match r with
        | .comma _ :: r' =>
          match itemList item stop exp r' with
          | .error e => .error e
          | .ok (xs, rest) => .ok (x :: xs, rest)
        | r => .ok ([x], r)

def litItem : Token → Option Literal
  | .stringLiteral s _ => some (.string s)
  | .numericLiteral n _ => some (.numeric n)
  | _ => none

def litStop : Token → Bool
  | .newline _ => true
  | _ => false

def fieldItem : Token → Option Field
  | .numericLiteral n _ => some (.numericLiteral (BitVec.ofNat 12 n))
  | .identifier id _ =>
    match fieldOfIdentifier id with
    | .ret f => some f
    | .panic => none
  | _ => none

def fieldStop : Token → Bool
  | .newline _ => true
  | .singleLineComment _ _ => true
  | _ => false

def litExp : List Str := ["numeric literal".toList, "string literal".toList]
def fieldExp : List Str := ["instruction field".toList]

theorem litItem_iff (t : Token) (x : Literal) : litItem t = some x ↔ LiteralTok t x := by
  constructor
  · intro h
    unfold litItem at h
    split at h
    · simp at h; subst h; exact .string
    · simp at h; subst h; exact .numeric
    · simp at h
  · intro h
    cases h <;> rfl

theorem fieldItem_iff (t : Token) (x : Field) : fieldItem t = some x ↔ OperandTok t x := by
  constructor
  · intro h
    unfold fieldItem at h
    split at h
    · simp at h; subst h; exact .numeric (by simp)
    · split at h
      · rename_i f hf
        simp at h; subst h
        exact .name ((operandOf_iff _ _).1 hf)
      · simp at h
    · simp at h
  · intro h
    cases h with
    | numeric h =>
      simp only [fieldItem, Option.some.injEq, Field.numericLiteral.injEq]
      apply BitVec.eq_of_toNat_eq
      simp [h]
    | name h => simp [fieldItem, (operandOf_iff _ _).2 h]

theorem litStop_iff (t : Token) : litStop t = true ↔ IsNewline t := by
  cases t <;> simp [litStop, IsNewline]

theorem fieldStop_iff (t : Token) : fieldStop t = true ↔ IsNewline t ∨ IsComment t := by
  cases t <;> simp [fieldStop, IsNewline, IsComment]

/-- How the model's list functions answer, from the answer of `itemList`. -/
def lifted {α : Type} (list : List α) :
    Except ParseError (List α × List Token) → Run (Except ParseError (List α × Parser))
  | .error e => .ret (.error e)
  | .ok (xs, rest) => .ret (.ok (list ++ xs, Parser.new rest))

theorem parseLiteralList_eq (n : Nat) : ∀ (ts : List Token) (list : List Literal), ts.length < n →
    parseLiteralList n (Parser.new ts) list = lifted list (itemList litItem litStop litExp ts) := by
  induction n with
  | zero => intro ts list h; omega
  | succ n ih =>
    intro ts list h
    cases ts with
    | nil => rfl
    | cons t r =>
      rw [parseLiteralList, itemList.eq_def]
      simp only [new_current, List.head?_cons]
      cases t with
      | newline l => simp [litStop, lifted]
      | stringLiteral s l =>
        simp only [litStop, litItem, parseLiteral, new_current, List.head?_cons, new_consume, List.tail_cons]
        cases r with
        | nil => rfl
        | cons t' r =>
          cases t' with
          | comma l' =>
            simp only [List.head?_cons, List.tail_cons]
            rw [ih r _ (by simp at h; omega)]
            simp only [Bool.false_eq_true, if_false]
            cases itemList litItem litStop litExp r <;> simp [lifted]
          | _ => rfl
      | numericLiteral s l =>
        simp only [litStop, litItem, parseLiteral, new_current, List.head?_cons, new_consume, List.tail_cons]
        cases r with
        | nil => rfl
        | cons t' r =>
          cases t' with
          | comma l' =>
            simp only [List.head?_cons, List.tail_cons]
            rw [ih r _ (by simp at h; omega)]
            simp only [Bool.false_eq_true, if_false]
            cases itemList litItem litStop litExp r <;> simp [lifted]
          | _ => rfl
      | _ => rfl

theorem fieldOfIdentifier_no_panic (id : Str) : fieldOfIdentifier id ≠ .panic := by
  obtain ⟨f, h, _⟩ := fieldOfIdentifier_ret id
  rw [h]
  simp

theorem parseFieldList_eq (n : Nat) : ∀ (ts : List Token) (list : List Field), ts.length < n →
    parseFieldList n (Parser.new ts) list = lifted list (itemList fieldItem fieldStop fieldExp ts) := by
  induction n with
  | zero => intro ts list h; omega
  | succ n ih =>
    intro ts list h
    cases ts with
    | nil => rfl
    | cons t r =>
      rw [parseFieldList, itemList.eq_def]
      simp only [new_current, List.head?_cons]
      cases t with
      | newline l => simp [fieldStop, lifted]
      | singleLineComment s l => simp [fieldStop, lifted]
      | numericLiteral s l =>
        simp only [fieldStop, fieldItem, parseField, new_current, List.head?_cons, new_consume, List.tail_cons]
        cases r with
        | nil => rfl
        | cons t' r =>
          cases t' with
          | comma l' =>
            simp only [List.head?_cons, List.tail_cons]
            rw [ih r _ (by simp at h; omega)]
            simp only [Bool.false_eq_true, if_false]
            cases itemList fieldItem fieldStop fieldExp r <;> simp [lifted]
          | _ => rfl
      | identifier s l =>
        simp only [fieldStop, fieldItem, parseField, new_current, List.head?_cons, new_consume, List.tail_cons]
        cases hf : fieldOfIdentifier s with
        | panic => exact (fieldOfIdentifier_no_panic s hf).elim
        | ret f =>
          simp only
          cases r with
          | nil => rfl
          | cons t' r =>
            cases t' with
            | comma l' =>
              simp only [new_current, new_consume, List.head?_cons, List.tail_cons]
              rw [ih r _ (by simp at h; omega)]
              simp only [Bool.false_eq_true, if_false]
              cases itemList fieldItem fieldStop fieldExp r <;> simp [lifted]
            | _ => rfl
      | _ => rfl

/-! ### Properties of lists of items -/

section
variable {α : Type} {item : Token → Option α} {stop : Token → Bool} {exp : List Str}

/-- An item is not a comma and does not end a list. -/
structure Proper (item : Token → Option α) (stop : Token → Bool) : Prop where
  stop_newline : ∀ l, stop (.newline l) = true
  item_stop : ∀ t x, item t = some x → stop t = false
  stop_comma : ∀ l, stop (.comma l) = false
  item_comma : ∀ l, item (.comma l) = none

theorem lit_proper : Proper litItem litStop where
  stop_newline _ := rfl
  item_stop t x h := by cases t <;> simp_all [litItem, litStop]
  stop_comma _ := rfl
  item_comma _ := rfl

theorem field_proper : Proper fieldItem fieldStop where
  stop_newline _ := rfl
  item_stop t x h := by cases t <;> simp_all [fieldItem, fieldStop]
  stop_comma _ := rfl
  item_comma _ := rfl

/-- The first token is a comma. -/
def StartsComma (ts : List Token) : Prop := ∃ l r, ts = .comma l :: r

/-- What may follow a list. -/
def Follows (stop : Token → Bool) (isOpen : Bool) (rest : List Token) : Prop :=
  if isOpen then ∃ t r, rest = t :: r ∧ stop t = true else ¬ StartsComma rest

theorem itemList_of (hp : Proper item stop) {b : Bool} {ts : List Token} {xs : List α}
    (h : ItemList (fun t x => item t = some x) b ts xs) {rest : List Token} (hf : Follows stop b rest) :
    itemList item stop exp (ts ++ rest) = .ok (xs, rest) := by
  induction h with
  | empty =>
    obtain ⟨t, r, rfl, hs⟩ := hf
    simp [itemList, hs]
  | one hx =>
    simp only [Follows, Bool.false_eq_true, if_false] at hf
    rw [List.cons_append, List.nil_append, itemList.eq_def]
    simp only [hp.item_stop _ _ hx, Bool.false_eq_true, if_false, hx]
    split
    · rename_i l r
      exact (hf ⟨l, r, rfl⟩).elim
    · rfl
  | @more b t x l ts xs hx _ ih =>
    rw [List.cons_append, List.cons_append, itemList.eq_def]
    simp only [hp.item_stop _ _ hx, Bool.false_eq_true, if_false, hx, ih hf]

theorem itemList_ok (n : Nat) : ∀ {ts : List Token} {xs : List α} {rest : List Token}, ts.length ≤ n →
    itemList item stop exp ts = .ok (xs, rest) →
    ∃ b used, ts = used ++ rest ∧ ItemList (fun t x => item t = some x) b used xs ∧ Follows stop b rest := by
  induction n with
  | zero =>
    intro ts xs rest hl h
    have : ts = [] := List.length_eq_zero_iff.1 (by omega)
    subst this
    simp [itemList] at h
  | succ n ih =>
    intro ts xs rest hl h
    cases ts with
    | nil => simp [itemList] at h
    | cons t r =>
      rw [itemList.eq_def] at h
      simp only at h
      split at h
      · rename_i hs
        simp at h
        obtain ⟨rfl, rfl⟩ := h
        exact ⟨true, [], rfl, .empty, t, r, rfl, hs⟩
      · split at h
        · simp at h
        · rename_i x hx
          split at h
          · rename_i l r'
            cases hr : itemList item stop exp r' with
            | error e => rw [hr] at h; simp at h
            | ok p =>
              obtain ⟨ys, rest'⟩ := p
              rw [hr] at h
              simp at h
              obtain ⟨rfl, rfl⟩ := h
              obtain ⟨b, used, rfl, h1, h2⟩ := ih (by simp at hl; omega) hr
              exact ⟨b, t :: .comma l :: used, rfl, .more hx h1, h2⟩
          · rename_i hnc
            simp at h
            obtain ⟨rfl, rfl⟩ := h
            refine ⟨false, [t], rfl, .one hx, ?_⟩
            rintro ⟨l, r', rfl⟩
            exact hnc l r' rfl

/-- Tokens that ask for a further item: nothing, or items each followed by a comma. -/
inductive Asking (item : Token → Option α) : List Token → List α → Prop where
  | empty : Asking item [] []
  | more {t : Token} {x : α} {l : Loc} {ts : List Token} {xs : List α} : item t = some x → Asking item ts xs →
    Asking item (t :: .comma l :: ts) (x :: xs)

theorem Asking.open {ts : List Token} {xs : List α} (h : Asking item ts xs) :
    ItemList (fun t x => item t = some x) true ts xs := by
  induction h with
  | empty => exact .empty
  | more hx _ ih => exact .more hx ih

theorem Asking.one {ts : List Token} {xs : List α} (h : Asking item ts xs) {t : Token} {x : α} (ht : item t = some x) :
    ItemList (fun t x => item t = some x) false (ts ++ [t]) (xs ++ [x]) := by
  induction h with
  | empty => exact .one ht
  | more hx _ ih => exact .more hx ih

theorem asking_error (hp : Proper item stop) {ts : List Token} {xs : List α} (h : Asking item ts xs) (rest : List Token)
    {e : ParseError} (he : itemList item stop exp rest = .error e) : itemList item stop exp (ts ++ rest) = .error e := by
  induction h with
  | empty => exact he
  | more hx _ ih =>
    rw [List.cons_append, List.cons_append, itemList.eq_def]
    simp only [hp.item_stop _ _ hx, Bool.false_eq_true, if_false, hx, ih]

theorem itemList_error (n : Nat) : ∀ {ts : List Token} {e : ParseError}, ts.length ≤ n →
    itemList item stop exp ts = .error e →
    ∃ used xs, Asking item used xs ∧
      ((ts = used ∧ e = .unexpectedEndOfFile exp) ∨
       (∃ t post, ts = used ++ t :: post ∧ item t = none ∧ stop t = false ∧ e = .unexpectedToken exp t)) := by
  induction n with
  | zero =>
    intro ts e hl h
    have : ts = [] := List.length_eq_zero_iff.1 (by omega)
    subst this
    simp [itemList] at h
    exact ⟨[], [], .empty, .inl ⟨rfl, h.symm⟩⟩
  | succ n ih =>
    intro ts e hl h
    cases ts with
    | nil =>
      simp [itemList] at h
      exact ⟨[], [], .empty, .inl ⟨rfl, h.symm⟩⟩
    | cons t r =>
      rw [itemList.eq_def] at h
      simp only at h
      split at h
      · simp at h
      · rename_i hs
        split at h
        · rename_i hx
          simp at h
          exact ⟨[], [], .empty, .inr ⟨t, r, rfl, hx, by simpa using hs, h.symm⟩⟩
        · rename_i x hx
          split at h
          · rename_i l r'
            cases hr : itemList item stop exp r' with
            | ok p => rw [hr] at h; simp at h
            | error e' =>
              rw [hr] at h
              simp at h
              subst h
              obtain ⟨used, xs, h1, h2⟩ := ih (by simp at hl; omega) hr
              refine ⟨t :: .comma l :: used, x :: xs, .more hx h1, ?_⟩
              rcases h2 with ⟨rfl, rfl⟩ | ⟨t', post, rfl, h3⟩
              · exact .inl ⟨rfl, rfl⟩
              · exact .inr ⟨t', post, rfl, h3⟩
          · simp at h

end

/-! ### Statements -/

def isBlankTok : Token → Bool
  | .newline _ => true
  | .singleLineComment _ _ => true
  | _ => false

theorem isBlankTok_iff (t : Token) : isBlankTok t = true ↔ IsNewline t ∨ IsComment t := fieldStop_iff t

def StartsMarker (ts : List Token) : Prop := ∃ l r, ts = .labelMarker l :: r

def stmtExp : List Str := ["directive marker".toList, "identifier".toList]
def idExp : List Str := ["identifier".toList]

/-- The first token of a statement. -/
def starts : Token → Bool
  | .directiveMarker _ => true
  | .identifier _ _ => true
  | _ => false

def isIdent : Token → Bool
  | .identifier _ _ => true
  | _ => false

/-- Everything the parser can answer. -/
inductive ParseOutcome : List Token → Except ParseError (List Node) → Prop where
  | empty : ParseOutcome [] (.ok [])
  | blank {t : Token} {ts : List Token} {out : Except ParseError (List Node)} : isBlankTok t = true → ParseOutcome ts out →
    ParseOutcome (t :: ts) out
  | label {s : Str} {l l' : Loc} {ts : List Token} {out : Except ParseError (List Node)} : ParseOutcome ts out →
    ParseOutcome (.identifier s l :: .labelMarker l' :: ts) (out.map (.label l s :: ·))
  | directive {s : Str} {l l' : Loc} {as rest : List Token} {xs : List Literal} {out : Except ParseError (List Node)} :
    itemList litItem litStop litExp as = .ok (xs, rest) → ParseOutcome rest out →
    ParseOutcome (.directiveMarker l' :: .identifier s l :: as) (out.map (.directive l s xs :: ·))
  | directiveError {s : Str} {l l' : Loc} {as : List Token} {e : ParseError} :
    itemList litItem litStop litExp as = .error e → ParseOutcome (.directiveMarker l' :: .identifier s l :: as) (.error e)
  | directiveEnd {l' : Loc} : ParseOutcome [.directiveMarker l'] (.error (.unexpectedEndOfFile idExp))
  | directiveName {l' : Loc} {t : Token} {ts : List Token} : isIdent t = false →
    ParseOutcome (.directiveMarker l' :: t :: ts) (.error (.unexpectedToken idExp t))
  | instruction {s : Str} {l : Loc} {as rest : List Token} {fs : List Field} {out : Except ParseError (List Node)} :
    ¬ StartsMarker as → itemList fieldItem fieldStop fieldExp as = .ok (fs, rest) → ParseOutcome rest out →
    ParseOutcome (.identifier s l :: as) (out.map (.instruction l s fs :: ·))
  | instructionError {s : Str} {l : Loc} {as : List Token} {e : ParseError} :
    ¬ StartsMarker as → itemList fieldItem fieldStop fieldExp as = .error e → ParseOutcome (.identifier s l :: as) (.error e)
  | statement {t : Token} {ts : List Token} : isBlankTok t = false → starts t = false →
    ParseOutcome (t :: ts) (.error (.unexpectedToken stmtExp t))

theorem itemList_length {α : Type} {item : Token → Option α} {stop : Token → Bool} {exp : List Str} {ts : List Token}
    {xs : List α} {rest : List Token} (h : itemList item stop exp ts = .ok (xs, rest)) : rest.length ≤ ts.length := by
  obtain ⟨b, used, rfl, _⟩ := itemList_ok _ (Nat.le_refl _) h
  simp

theorem parseInstruction_eq (s : Str) (l : Loc) (r : List Token) :
    (Parser.new (.identifier s l :: r)).parseInstruction =
      match itemList fieldItem fieldStop fieldExp r with
      | .error e => .ret (.error e)
      | .ok (fs, rest) => .ret (.ok (.instruction l s fs, Parser.new rest)) := by
  simp only [parseInstruction, parseIdentifier, new_consume, List.head?_cons, List.tail_cons]
  rw [parseFieldList_eq _ _ _ (by rw [new_remaining]; omega)]
  cases itemList fieldItem fieldStop fieldExp r <;> simp [lifted]

theorem parseDirective_eq (s : Str) (l l' : Loc) (r : List Token) :
    (Parser.new (.directiveMarker l' :: .identifier s l :: r)).parseDirective =
      match itemList litItem litStop litExp r with
      | .error e => .ret (.error e)
      | .ok (xs, rest) => .ret (.ok (.directive l s xs, Parser.new rest)) := by
  simp only [parseDirective, parseIdentifier, new_consume, List.head?_cons, List.tail_cons]
  rw [parseLiteralList_eq _ _ _ (by rw [new_remaining]; omega)]
  cases itemList litItem litStop litExp r <;> simp [lifted]

/-- The parser returns one of the outcomes. -/
theorem parse_outcome (n : Nat) : ∀ (ts : List Token) (nodes : List Node), ts.length < n →
    ∃ out, ParseOutcome ts out ∧ parseStatementList n (Parser.new ts) nodes = .ret (out.map (nodes ++ ·)) := by
  induction n with
  | zero => intro ts nodes h; omega
  | succ n ih =>
    intro ts nodes h
    cases ts with
    | nil => exact ⟨.ok [], .empty, by simp [parseStatementList, Except.map]⟩
    | cons t r =>
      simp only [List.length_cons] at h
      have bad : ∀ (hb : isBlankTok t = false) (hs : starts t = false)
          (hm : parseStatementList (n + 1) (Parser.new (t :: r)) nodes =
            .ret (.error (.unexpectedToken stmtExp t))),
          ∃ out, ParseOutcome (t :: r) out ∧
            parseStatementList (n + 1) (Parser.new (t :: r)) nodes = .ret (out.map (nodes ++ ·)) :=
        fun hb hs hm => ⟨_, .statement hb hs, by rw [hm]; rfl⟩
      cases t with
      | newline l =>
        obtain ⟨out, h1, h2⟩ := ih r nodes (by omega)
        refine ⟨out, .blank rfl h1, ?_⟩
        rw [parseStatementList]
        simpa using h2
      | singleLineComment s l =>
        obtain ⟨out, h1, h2⟩ := ih r nodes (by omega)
        refine ⟨out, .blank rfl h1, ?_⟩
        rw [parseStatementList]
        simpa using h2
      | directiveMarker l =>
        rw [parseStatementList]
        simp only [new_current, List.head?_cons]
        cases r with
        | nil => exact ⟨_, .directiveEnd, rfl⟩
        | cons t' r =>
          simp only [parseStatement, new_current, List.head?_cons]
          cases t' with
          | identifier s l' =>
            rw [parseDirective_eq]
            cases hi : itemList litItem litStop litExp r with
            | error e => exact ⟨_, .directiveError hi, rfl⟩
            | ok p =>
              obtain ⟨xs, rest⟩ := p
              have := itemList_length hi
              simp only [List.length_cons] at h
              obtain ⟨out, h1, h2⟩ := ih rest (nodes ++ [.directive l' s xs]) (by omega)
              refine ⟨_, .directive hi h1, ?_⟩
              simp only
              rw [h2]
              cases out <;> simp [Except.map]
          | _ => exact ⟨_, .directiveName rfl, rfl⟩
      | identifier s l =>
        rw [parseStatementList]
        simp only [new_current, List.head?_cons]
        have inst : ¬ StartsMarker r → (Parser.new (.identifier s l :: r)).parseStatement =
            (Parser.new (.identifier s l :: r)).parseInstruction := by
          intro hn
          simp only [parseStatement, new_current, List.head?_cons, new_next, List.tail_cons]
          cases r with
          | nil => rfl
          | cons t' r =>
            cases t' with
            | labelMarker l' => exact (hn ⟨l', r, rfl⟩).elim
            | _ => rfl
        by_cases hm : StartsMarker r
        · obtain ⟨l', r', rfl⟩ := hm
          simp only [List.length_cons] at h
          obtain ⟨out, h1, h2⟩ := ih r' (nodes ++ [.label l s]) (by omega)
          refine ⟨_, .label h1, ?_⟩
          simp only [parseStatement, new_current, List.head?_cons, new_next, List.tail_cons, parseLabel, parseIdentifier,
            new_consume]
          rw [h2]
          cases out <;> simp [Except.map]
        · rw [inst hm, parseInstruction_eq]
          cases hi : itemList fieldItem fieldStop fieldExp r with
          | error e => exact ⟨_, .instructionError hm hi, rfl⟩
          | ok p =>
            obtain ⟨xs, rest⟩ := p
            have := itemList_length hi
            obtain ⟨out, h1, h2⟩ := ih rest (nodes ++ [.instruction l s xs]) (by omega)
            refine ⟨_, .instruction hm hi h1, ?_⟩
            simp only
            rw [h2]
            cases out <;> simp [Except.map]
      | _ => exact bad rfl rfl rfl

theorem outcome_exists (ts : List Token) : ∃ out, ParseOutcome ts out ∧ parse ts = .ret out := by
  obtain ⟨out, h1, h2⟩ := parse_outcome (ts.length + 1) ts [] (by omega)
  refine ⟨out, h1, ?_⟩
  rw [parse, h2]
  cases out <;> simp [Except.map]

theorem outcome_unique {ts : List Token} {out out' : Except ParseError (List Node)} (h : ParseOutcome ts out)
    (h' : ParseOutcome ts out') : out = out' := by
  induction h generalizing out' with
  | empty => cases h'; rfl
  | @blank t ts out hb _ ih =>
    cases h' with
    | blank _ h' => exact ih h'
    | label _ => simp [isBlankTok] at hb
    | directive _ _ => simp [isBlankTok] at hb
    | directiveError _ => simp [isBlankTok] at hb
    | directiveEnd => simp [isBlankTok] at hb
    | directiveName _ => simp [isBlankTok] at hb
    | instruction _ _ _ => simp [isBlankTok] at hb
    | instructionError _ _ => simp [isBlankTok] at hb
    | statement hb' _ => rw [hb] at hb'; cases hb'
  | label _ ih =>
    cases h' with
    | blank hb _ => simp [isBlankTok] at hb
    | label h' => rw [ih h']
    | instruction hn _ _ => exact (hn ⟨_, _, rfl⟩).elim
    | instructionError hn _ => exact (hn ⟨_, _, rfl⟩).elim
    | statement _ hs => simp [starts] at hs
  | directive hi _ ih =>
    cases h' with
    | blank hb _ => simp [isBlankTok] at hb
    | directive hi' h' =>
      rw [hi] at hi'
      cases hi'
      rw [ih h']
    | directiveError hi' => rw [hi] at hi'; cases hi'
    | directiveName hn => simp [isIdent] at hn
    | statement _ hs => simp [starts] at hs
  | directiveError hi =>
    cases h' with
    | blank hb _ => simp [isBlankTok] at hb
    | directive hi' h' => rw [hi] at hi'; cases hi'
    | directiveError hi' => rw [hi] at hi'; cases hi'; rfl
    | directiveName hn => simp [isIdent] at hn
    | statement _ hs => simp [starts] at hs
  | directiveEnd =>
    cases h' with
    | blank hb _ => simp [isBlankTok] at hb
    | directiveEnd => rfl
    | statement _ hs => simp [starts] at hs
  | directiveName hn =>
    cases h' with
    | blank hb _ => simp [isBlankTok] at hb
    | directive _ _ => simp [isIdent] at hn
    | directiveError _ => simp [isIdent] at hn
    | directiveName _ => rfl
    | statement _ hs => simp [starts] at hs
  | instruction hm hi _ ih =>
    cases h' with
    | blank hb _ => simp [isBlankTok] at hb
    | label _ => exact (hm ⟨_, _, rfl⟩).elim
    | instruction _ hi' h' =>
      rw [hi] at hi'
      cases hi'
      rw [ih h']
    | instructionError _ hi' => rw [hi] at hi'; cases hi'
    | statement _ hs => simp [starts] at hs
  | instructionError hm hi =>
    cases h' with
    | blank hb _ => simp [isBlankTok] at hb
    | label _ => exact (hm ⟨_, _, rfl⟩).elim
    | instruction _ hi' h' => rw [hi] at hi'; cases hi'
    | instructionError _ hi' => rw [hi] at hi'; cases hi'; rfl
    | statement _ hs => simp [starts] at hs
  | statement hb hs =>
    cases h' with
    | blank hb' _ => rw [hb] at hb'; cases hb'
    | label _ => simp [starts] at hs
    | directive _ _ => simp [starts] at hs
    | directiveError _ => simp [starts] at hs
    | directiveEnd => simp [starts] at hs
    | directiveName _ => simp [starts] at hs
    | instruction _ _ _ => simp [starts] at hs
    | instructionError _ _ => simp [starts] at hs
    | statement _ _ => rfl

theorem parse_iff (ts : List Token) (out : Except ParseError (List Node)) : parse ts = .ret out ↔ ParseOutcome ts out := by
  obtain ⟨out', h1, h2⟩ := outcome_exists ts
  constructor
  · intro h
    rw [h2] at h
    cases h
    exact h1
  · intro h
    rw [h2, outcome_unique h1 h]

end C8S
