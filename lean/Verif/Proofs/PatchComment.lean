import Verif.Model.PatchComment
import Verif.Spec.PatchComment
import Verif.Proofs.Blanks

/- The parser whose lists of arguments stop at a comment. -/

namespace C8S

open Spec Parser

theorem parseLiteralListStop_eq (n : Nat) : ∀ (ts : List Token) (list : List Literal), ts.length < n →
    parseLiteralListStop n (Parser.new ts) list = lifted list (itemList litItem fieldStop litExp ts) := by
  induction n with
  | zero => intro ts list h; omega
  | succ n ih =>
    intro ts list h
    cases ts with
    | nil => rfl
    | cons t r =>
      rw [parseLiteralListStop, itemList.eq_def]
      simp only [new_current, List.head?_cons]
      cases t with
      | newline l => simp [fieldStop, lifted]
      | singleLineComment s l => simp [fieldStop, lifted]
      | stringLiteral s l =>
        simp only [fieldStop, litItem, parseLiteral, new_current, List.head?_cons, new_consume, List.tail_cons]
        cases r with
        | nil => rfl
        | cons t' r =>
          cases t' with
          | comma l' =>
            simp only [List.head?_cons, List.tail_cons]
            rw [ih r _ (by simp at h; omega)]
            simp only [Bool.false_eq_true, if_false]
            cases itemList litItem fieldStop litExp r <;> simp [lifted]
          | _ => rfl
      | numericLiteral s l =>
        simp only [fieldStop, litItem, parseLiteral, new_current, List.head?_cons, new_consume, List.tail_cons]
        cases r with
        | nil => rfl
        | cons t' r =>
          cases t' with
          | comma l' =>
            simp only [List.head?_cons, List.tail_cons]
            rw [ih r _ (by simp at h; omega)]
            simp only [Bool.false_eq_true, if_false]
            cases itemList litItem fieldStop litExp r <;> simp [lifted]
          | _ => rfl
      | _ => rfl

theorem litField_proper : Proper litItem fieldStop where
  stop_newline _ := rfl
  item_stop t x h := by cases t <;> simp_all [litItem, fieldStop]
  stop_comma _ := rfl
  item_comma _ := rfl

/-- Everything the changed parser can answer. -/
inductive StopOutcome : List Token → Except ParseError (List Node) → Prop where
  | empty : StopOutcome [] (.ok [])
  | blank {t : Token} {ts : List Token} {out : Except ParseError (List Node)} : isBlankTok t = true → StopOutcome ts out →
    StopOutcome (t :: ts) out
  | label {s : Str} {l l' : Loc} {ts : List Token} {out : Except ParseError (List Node)} : StopOutcome ts out →
    StopOutcome (.identifier s l :: .labelMarker l' :: ts) (out.map (.label l s :: ·))
  | directive {s : Str} {l l' : Loc} {as rest : List Token} {xs : List Literal} {out : Except ParseError (List Node)} :
    itemList litItem fieldStop litExp as = .ok (xs, rest) → StopOutcome rest out →
    StopOutcome (.directiveMarker l' :: .identifier s l :: as) (out.map (.directive l s xs :: ·))
  | directiveError {s : Str} {l l' : Loc} {as : List Token} {e : ParseError} :
    itemList litItem fieldStop litExp as = .error e → StopOutcome (.directiveMarker l' :: .identifier s l :: as) (.error e)
  | directiveEnd {l' : Loc} : StopOutcome [.directiveMarker l'] (.error (.unexpectedEndOfFile idExp))
  | directiveName {l' : Loc} {t : Token} {ts : List Token} : isIdent t = false →
    StopOutcome (.directiveMarker l' :: t :: ts) (.error (.unexpectedToken idExp t))
  | instruction {s : Str} {l : Loc} {as rest : List Token} {fs : List Field} {out : Except ParseError (List Node)} :
    ¬ StartsMarker as → itemList fieldItem fieldStop fieldExp as = .ok (fs, rest) → StopOutcome rest out →
    StopOutcome (.identifier s l :: as) (out.map (.instruction l s fs :: ·))
  | instructionError {s : Str} {l : Loc} {as : List Token} {e : ParseError} :
    ¬ StartsMarker as → itemList fieldItem fieldStop fieldExp as = .error e → StopOutcome (.identifier s l :: as) (.error e)
  | statement {t : Token} {ts : List Token} : isBlankTok t = false → starts t = false →
    StopOutcome (t :: ts) (.error (.unexpectedToken stmtExp t))

theorem parseDirectiveStop_eq (s : Str) (l l' : Loc) (r : List Token) :
    (Parser.new (.directiveMarker l' :: .identifier s l :: r)).parseDirectiveStop =
      match itemList litItem fieldStop litExp r with
      | .error e => .ret (.error e)
      | .ok (xs, rest) => .ret (.ok (.directive l s xs, Parser.new rest)) := by
  simp only [parseDirectiveStop, parseIdentifier, new_consume, List.head?_cons, List.tail_cons]
  rw [parseLiteralListStop_eq _ _ _ (by rw [new_remaining]; omega)]
  cases itemList litItem fieldStop litExp r <;> simp [lifted]

/-- The parser returns one of the outcomes. -/
theorem parseStop_outcome (n : Nat) : ∀ (ts : List Token) (nodes : List Node), ts.length < n →
    ∃ out, StopOutcome ts out ∧ parseStatementListStop n (Parser.new ts) nodes = .ret (out.map (nodes ++ ·)) := by
  induction n with
  | zero => intro ts nodes h; omega
  | succ n ih =>
    intro ts nodes h
    cases ts with
    | nil => exact ⟨.ok [], .empty, by simp [parseStatementListStop, Except.map]⟩
    | cons t r =>
      simp only [List.length_cons] at h
      have bad : ∀ (hb : isBlankTok t = false) (hs : starts t = false)
          (hm : parseStatementListStop (n + 1) (Parser.new (t :: r)) nodes =
            .ret (.error (.unexpectedToken stmtExp t))),
          ∃ out, StopOutcome (t :: r) out ∧
            parseStatementListStop (n + 1) (Parser.new (t :: r)) nodes = .ret (out.map (nodes ++ ·)) :=
        fun hb hs hm => ⟨_, .statement hb hs, by rw [hm]; rfl⟩
      cases t with
      | newline l =>
        obtain ⟨out, h1, h2⟩ := ih r nodes (by omega)
        refine ⟨out, .blank rfl h1, ?_⟩
        rw [parseStatementListStop]
        simpa using h2
      | singleLineComment s l =>
        obtain ⟨out, h1, h2⟩ := ih r nodes (by omega)
        refine ⟨out, .blank rfl h1, ?_⟩
        rw [parseStatementListStop]
        simpa using h2
      | directiveMarker l =>
        rw [parseStatementListStop]
        simp only [new_current, List.head?_cons]
        cases r with
        | nil => exact ⟨_, .directiveEnd, rfl⟩
        | cons t' r =>
          simp only [parseStatementStop, new_current, List.head?_cons]
          cases t' with
          | identifier s l' =>
            rw [parseDirectiveStop_eq]
            cases hi : itemList litItem fieldStop litExp r with
            | error e => exact ⟨_, .directiveError hi, rfl⟩
            | ok p =>
              obtain ⟨xs, rest⟩ := p
              have := itemList_length hi
              simp only [List.length_cons] at h
              obtain ⟨out, h1, h2⟩ := ih rest (nodes ++ [.directive l' s xs]) (by omega)
              refine ⟨_, .directive hi h1, ?_⟩
              simp only
              rw [h2]
              cases out <;> simp [Except.map]
          | _ => exact ⟨_, .directiveName rfl, rfl⟩
      | identifier s l =>
        rw [parseStatementListStop]
        simp only [new_current, List.head?_cons]
        have inst : ¬ StartsMarker r → (Parser.new (.identifier s l :: r)).parseStatementStop =
            (Parser.new (.identifier s l :: r)).parseInstruction := by
          intro hn
          simp only [parseStatementStop, new_current, List.head?_cons, new_next, List.tail_cons]
          cases r with
          | nil => rfl
          | cons t' r =>
            cases t' with
            | labelMarker l' => exact (hn ⟨l', r, rfl⟩).elim
            | _ => rfl
        by_cases hm : StartsMarker r
        · obtain ⟨l', r', rfl⟩ := hm
          simp only [List.length_cons] at h
          obtain ⟨out, h1, h2⟩ := ih r' (nodes ++ [.label l s]) (by omega)
          refine ⟨_, .label h1, ?_⟩
          simp only [parseStatementStop, new_current, List.head?_cons, new_next, List.tail_cons, parseLabel, parseIdentifier,
            new_consume]
          rw [h2]
          cases out <;> simp [Except.map]
        · rw [inst hm, parseInstruction_eq]
          cases hi : itemList fieldItem fieldStop fieldExp r with
          | error e => exact ⟨_, .instructionError hm hi, rfl⟩
          | ok p =>
            obtain ⟨xs, rest⟩ := p
            have := itemList_length hi
            obtain ⟨out, h1, h2⟩ := ih rest (nodes ++ [.instruction l s xs]) (by omega)
            refine ⟨_, .instruction hm hi h1, ?_⟩
            simp only
            rw [h2]
            cases out <;> simp [Except.map]
      | _ => exact bad rfl rfl rfl

theorem stopOutcome_exists (ts : List Token) : ∃ out, StopOutcome ts out ∧ parseStop ts = .ret out := by
  obtain ⟨out, h1, h2⟩ := parseStop_outcome (ts.length + 1) ts [] (by omega)
  refine ⟨out, h1, ?_⟩
  rw [parseStop, h2]
  cases out <;> simp [Except.map]

theorem stopOutcome_unique {ts : List Token} {out out' : Except ParseError (List Node)} (h : StopOutcome ts out)
    (h' : StopOutcome ts out') : out = out' := by
  induction h generalizing out' with
  | empty => cases h'; rfl
  | @blank t ts out hb _ ih =>
    cases h' with
    | blank _ h' => exact ih h'
    | label _ => simp [isBlankTok] at hb
    | directive _ _ => simp [isBlankTok] at hb
    | directiveError _ => simp [isBlankTok] at hb
    | directiveEnd => simp [isBlankTok] at hb
    | directiveName _ => simp [isBlankTok] at hb
    | instruction _ _ _ => simp [isBlankTok] at hb
    | instructionError _ _ => simp [isBlankTok] at hb
    | statement hb' _ => rw [hb] at hb'; cases hb'
  | label _ ih =>
    cases h' with
    | blank hb _ => simp [isBlankTok] at hb
    | label h' => rw [ih h']
    | instruction hn _ _ => exact (hn ⟨_, _, rfl⟩).elim
    | instructionError hn _ => exact (hn ⟨_, _, rfl⟩).elim
    | statement _ hs => simp [starts] at hs
  | directive hi _ ih =>
    cases h' with
    | blank hb _ => simp [isBlankTok] at hb
    | directive hi' h' =>
      rw [hi] at hi'
      cases hi'
      rw [ih h']
    | directiveError hi' => rw [hi] at hi'; cases hi'
    | directiveName hn => simp [isIdent] at hn
    | statement _ hs => simp [starts] at hs
  | directiveError hi =>
    cases h' with
    | blank hb _ => simp [isBlankTok] at hb
    | directive hi' h' => rw [hi] at hi'; cases hi'
    | directiveError hi' => rw [hi] at hi'; cases hi'; rfl
    | directiveName hn => simp [isIdent] at hn
    | statement _ hs => simp [starts] at hs
  | directiveEnd =>
    cases h' with
    | blank hb _ => simp [isBlankTok] at hb
    | directiveEnd => rfl
    | statement _ hs => simp [starts] at hs
  | directiveName hn =>
    cases h' with
    | blank hb _ => simp [isBlankTok] at hb
    | directive _ _ => simp [isIdent] at hn
    | directiveError _ => simp [isIdent] at hn
    | directiveName _ => rfl
    | statement _ hs => simp [starts] at hs
  | instruction hm hi _ ih =>
    cases h' with
    | blank hb _ => simp [isBlankTok] at hb
    | label _ => exact (hm ⟨_, _, rfl⟩).elim
    | instruction _ hi' h' =>
      rw [hi] at hi'
      cases hi'
      rw [ih h']
    | instructionError _ hi' => rw [hi] at hi'; cases hi'
    | statement _ hs => simp [starts] at hs
  | instructionError hm hi =>
    cases h' with
    | blank hb _ => simp [isBlankTok] at hb
    | label _ => exact (hm ⟨_, _, rfl⟩).elim
    | instruction _ hi' h' => rw [hi] at hi'; cases hi'
    | instructionError _ hi' => rw [hi] at hi'; cases hi'; rfl
    | statement _ hs => simp [starts] at hs
  | statement hb hs =>
    cases h' with
    | blank hb' _ => rw [hb] at hb'; cases hb'
    | label _ => simp [starts] at hs
    | directive _ _ => simp [starts] at hs
    | directiveError _ => simp [starts] at hs
    | directiveEnd => simp [starts] at hs
    | directiveName _ => simp [starts] at hs
    | instruction _ _ _ => simp [starts] at hs
    | instructionError _ _ => simp [starts] at hs
    | statement _ _ => rfl

theorem parseStop_iff (ts : List Token) (out : Except ParseError (List Node)) : parseStop ts = .ret out ↔ StopOutcome ts out := by
  obtain ⟨out', h1, h2⟩ := stopOutcome_exists ts
  constructor
  · intro h
    rw [h2] at h
    cases h
    exact h1
  · intro h
    rw [h2, stopOutcome_unique h1 h]

/-- A program begins with neither a comma nor a label marker. -/
theorem freeProgram_head {ts : List Token} {ns : List Node} (h : FreeProgram ts ns) : ¬ StartsComma ts ∧ ¬ StartsMarker ts := by
  cases h with
  | empty => simp [StartsComma, StartsMarker]
  | blank hb _ =>
    rcases hb with ⟨l, rfl⟩ | ⟨s, l, rfl⟩ <;> simp [StartsComma, StartsMarker]
  | label _ => simp [StartsComma, StartsMarker]
  | directive _ _ _ => simp [StartsComma, StartsMarker]
  | instruction _ _ _ => simp [StartsComma, StartsMarker]

theorem stopOutcome_ok {ts : List Token} {out : Except ParseError (List Node)} (h : StopOutcome ts out) {ns : List Node}
    (hn : out = .ok ns) : FreeProgram ts ns := by
  induction h generalizing ns with
  | empty => cases hn; exact .empty
  | blank hb _ ih => exact .blank ((isBlankTok_iff _).1 hb) (ih hn)
  | label _ ih =>
    obtain ⟨x, hx, rfl⟩ := except_map_ok hn
    exact .label (ih hx)
  | directive hi _ ih =>
    obtain ⟨x, hx, rfl⟩ := except_map_ok hn
    obtain ⟨b, used, rfl, h1, h2⟩ := itemList_ok _ (Nat.le_refl _) hi
    refine .directive (ItemListCongr (fun t x => (litItem_iff t x).1) h1) ?_ (ih hx)
    intro hb
    simp only [Follows, hb, if_true] at h2
    obtain ⟨t, r, h3, h4⟩ := h2
    exact ⟨t, r, h3, (fieldStop_iff t).1 h4⟩
  | instruction hm hi _ ih =>
    obtain ⟨x, hx, rfl⟩ := except_map_ok hn
    obtain ⟨b, used, rfl, h1, h2⟩ := itemList_ok _ (Nat.le_refl _) hi
    refine .instruction (ItemListCongr (fun t x => (fieldItem_iff t x).1) h1) ?_ (ih hx)
    intro hb
    simp only [Follows, hb, if_true] at h2
    obtain ⟨t, r, h3, h4⟩ := h2
    exact ⟨t, r, h3, (fieldStop_iff t).1 h4⟩
  | _ => cases hn

theorem freeProgram_outcome {ts : List Token} {ns : List Node} (h : FreeProgram ts ns) : StopOutcome ts (.ok ns) := by
  induction h with
  | empty => exact .empty
  | blank hb _ ih => exact .blank ((isBlankTok_iff _).2 hb) ih
  | label _ ih => exact .label ih
  | @directive s l l' isOpen args ts xs ns hi ho hp ih =>
    have h1 := ItemListCongr (fun t x => (litItem_iff t x).2) hi
    have hf : Follows fieldStop isOpen ts := by
      cases isOpen with
      | false => simpa [Follows] using (freeProgram_head hp).1
      | true =>
        obtain ⟨t, r, h3, h4⟩ := ho rfl
        exact ⟨t, r, h3, (fieldStop_iff t).2 h4⟩
    exact .directive (itemList_of litField_proper h1 hf) ih
  | @instruction s l isOpen args ts fs ns hi ho hp ih =>
    have h1 := ItemListCongr (fun t x => (fieldItem_iff t x).2) hi
    have hf : Follows fieldStop isOpen ts := by
      cases isOpen with
      | false => simpa [Follows] using (freeProgram_head hp).1
      | true =>
        obtain ⟨t, r, h3, h4⟩ := ho rfl
        exact ⟨t, r, h3, (fieldStop_iff t).2 h4⟩
    exact .instruction (itemList_marker hi fun _ => (freeProgram_head hp).2) (itemList_of field_proper h1 hf) ih

theorem parseStop_ok_iff (ts : List Token) (ns : List Node) : parseStop ts = .ret (.ok ns) ↔ FreeProgram ts ns :=
  (parseStop_iff ts _).trans ⟨fun h => stopOutcome_ok h rfl, freeProgram_outcome⟩

theorem freeProgram_blanks {c b : List Token} {ns : List Node} (hc : AllBlank c) : FreeProgram (c ++ b) ns ↔ FreeProgram b ns := by
  induction c with
  | nil => rfl
  | cons t c ih =>
    have ih := ih fun x hx => hc x (List.mem_cons_of_mem _ hx)
    have ht := hc t List.mem_cons_self
    constructor
    · intro h
      rw [List.cons_append] at h
      generalize c ++ b = q at h ih
      cases h with
      | blank _ h => exact ih.1 h
      | _ => rcases ht with ⟨l, h⟩ | ⟨s, l, h⟩ <;> cases h
    · intro h
      exact .blank ht (ih.2 h)

/-- Replacing what stands at a newline or comment. -/
theorem freeProgram_replace {x : List Token} {ns : List Node} (h : FreeProgram x ns) {t t' : Token}
    (ht : IsNewline t ∨ IsComment t) (ht' : IsNewline t' ∨ IsComment t') {y z : List Token}
    (hy : ∀ ms, FreeProgram (t :: y) ms → FreeProgram (t' :: z) ms) {a : List Token} (hx : x = a ++ t :: y) :
    FreeProgram (a ++ t' :: z) ns := by
  induction h generalizing a with
  | empty => simp at hx
  | @blank t1 ts ns hb hp ih =>
    cases a with
    | nil =>
      simp only [List.nil_append, List.cons.injEq] at hx
      obtain ⟨rfl, rfl⟩ := hx
      exact hy _ (.blank ht hp)
    | cons t2 a =>
      simp only [List.cons_append, List.cons.injEq] at hx
      obtain ⟨rfl, rfl⟩ := hx
      exact .blank hb (ih rfl)
  | @label s l l' ts ns hp ih =>
    cases a with
    | nil =>
      simp only [List.nil_append, List.cons.injEq] at hx
      obtain ⟨rfl, _⟩ := hx
      simp [IsNewline, IsComment] at ht
    | cons t1 a =>
      cases a with
      | nil =>
        simp only [List.cons_append, List.nil_append, List.cons.injEq] at hx
        obtain ⟨_, rfl, _⟩ := hx
        simp [IsNewline, IsComment] at ht
      | cons t2 a =>
        simp only [List.cons_append, List.cons.injEq] at hx
        obtain ⟨rfl, rfl, rfl⟩ := hx
        exact .label (ih rfl)
  | @directive s l l' isOpen args ts xs ns hi ho hp ih =>
    cases a with
    | nil =>
      simp only [List.nil_append, List.cons.injEq] at hx
      obtain ⟨rfl, _⟩ := hx
      simp [IsNewline, IsComment] at ht
    | cons t1 a =>
      cases a with
      | nil =>
        simp only [List.cons_append, List.nil_append, List.cons.injEq] at hx
        obtain ⟨_, rfl, _⟩ := hx
        simp [IsNewline, IsComment] at ht
      | cons t2 a =>
        simp only [List.cons_append, List.cons.injEq] at hx
        obtain ⟨rfl, rfl, hx⟩ := hx
        obtain ⟨a', rfl, rfl⟩ := split_list (items_no_blank literal_no_blank hi) ht hx
        have hp' : FreeProgram (a' ++ t' :: z) ns := ih rfl
        rw [List.cons_append, List.cons_append, List.append_assoc]
        refine .directive hi ?_ hp'
        intro hopen
        cases a' with
        | nil => exact ⟨t', z, rfl, ht'⟩
        | cons t3 a' =>
          obtain ⟨t4, r, h1, h2⟩ := ho hopen
          simp only [List.cons_append, List.cons.injEq] at h1
          exact ⟨t4, a' ++ t' :: z, by rw [h1.1]; rfl, h2⟩
  | @instruction s l isOpen args ts fs ns hi ho hp ih =>
    cases a with
    | nil =>
      simp only [List.nil_append, List.cons.injEq] at hx
      obtain ⟨rfl, _⟩ := hx
      simp [IsNewline, IsComment] at ht
    | cons t1 a =>
      simp only [List.cons_append, List.cons.injEq] at hx
      obtain ⟨rfl, hx⟩ := hx
      obtain ⟨a', rfl, rfl⟩ := split_list (items_no_blank operand_no_blank hi) ht hx
      have hp' : FreeProgram (a' ++ t' :: z) ns := ih rfl
      rw [List.cons_append, List.append_assoc]
      refine .instruction hi ?_ hp'
      intro hopen
      cases a' with
      | nil => exact ⟨t', z, rfl, ht'⟩
      | cons t3 a' =>
        obtain ⟨t4, r, h1, h2⟩ := ho hopen
        simp only [List.cons_append, List.cons.injEq] at h1
        exact ⟨t4, a' ++ t' :: z, by rw [h1.1]; rfl, h2⟩

/-- Runs of newlines and comments are alike. -/
theorem freeProgram_runs {a b c d : List Token} {ns : List Node} (hc : AllBlank c) (hd : AllBlank d) (nc : c ≠ []) (nd : d ≠ [])
    (h : FreeProgram (a ++ (c ++ b)) ns) : FreeProgram (a ++ (d ++ b)) ns := by
  cases c with
  | nil => exact (nc rfl).elim
  | cons t c =>
    cases d with
    | nil => exact (nd rfl).elim
    | cons t' d =>
      refine freeProgram_replace h (hc t List.mem_cons_self) (hd t' List.mem_cons_self) (y := c ++ b) ?_ rfl
      intro ms h
      exact (freeProgram_blanks (c := t' :: d) hd).2 ((freeProgram_blanks (c := t :: c) hc).1 h)

/-- The lists of arguments differ only where a comment follows an open one. -/
theorem litList_same (n : Nat) : ∀ {ts : List Token}, ts.length ≤ n →
    (¬ ∃ args xs c b, ts = args ++ c :: b ∧ ItemList LiteralTok true args xs ∧ IsComment c) →
    itemList litItem fieldStop litExp ts = itemList litItem litStop litExp ts := by
  induction n with
  | zero =>
    intro ts hl _
    have : ts = [] := List.length_eq_zero_iff.1 (by omega)
    subst this
    rfl
  | succ n ih =>
    intro ts hl h
    cases ts with
    | nil => rfl
    | cons t r =>
      have key : ∀ x, litItem t = some x → ∀ l r', r = .comma l :: r' →
          itemList litItem fieldStop litExp r' = itemList litItem litStop litExp r' := by
        rintro x hx l r' rfl
        refine ih (by simp only [List.length_cons] at hl; omega) ?_
        rintro ⟨args, xs, c, b, rfl, h1, h2⟩
        exact h ⟨t :: .comma l :: args, x :: xs, c, b, rfl, .more ((litItem_iff t x).1 hx) h1, h2⟩
      have hs : fieldStop t = litStop t := by
        cases t with
        | singleLineComment s l => exact (h ⟨[], [], _, r, rfl, .empty, s, l, rfl⟩).elim
        | _ => rfl
      rw [itemList.eq_def, itemList.eq_def litItem litStop]
      simp only [hs]
      split
      · rfl
      · cases hx : litItem t with
        | none => rfl
        | some x =>
          simp only
          split
          · rename_i l r'
            rw [key x hx l r' rfl]
          · rfl

theorem openBefore_push {ts : List Token} (a : List Token) (h : OpenBeforeComment ts) : OpenBeforeComment (a ++ ts) := by
  obtain ⟨p, l', s, l, args, xs, c, b, rfl, h1, h2⟩ := h
  exact ⟨a ++ p, l', s, l, args, xs, c, b, by simp, h1, h2⟩

/-- Where no comment follows an open list of arguments, what the parser answers is what the changed one answers. -/
theorem outcome_same {ts : List Token} {out : Except ParseError (List Node)} (h : ParseOutcome ts out)
    (hn : ¬ OpenBeforeComment ts) : StopOutcome ts out := by
  have list : ∀ {l' s l as}, ¬ OpenBeforeComment (.directiveMarker l' :: .identifier s l :: as) →
      itemList litItem fieldStop litExp as = itemList litItem litStop litExp as := by
    intro l' s l as hn
    refine litList_same _ (Nat.le_refl _) ?_
    rintro ⟨args, xs, c, b, rfl, h1, h2⟩
    exact hn ⟨[], l', s, l, args, xs, c, b, rfl, h1, h2⟩
  induction h with
  | empty => exact .empty
  | @blank t ts out hb _ ih => exact .blank hb (ih fun h => hn (openBefore_push [t] h))
  | label _ ih => exact .label (ih fun h => hn (openBefore_push [_, _] h))
  | directive hi _ ih =>
    refine .directive ((list hn).trans hi) (ih fun h => hn ?_)
    obtain ⟨b, used, rfl, _, _⟩ := itemList_ok _ (Nat.le_refl _) hi
    exact openBefore_push (_ :: _ :: used) h
  | directiveError hi => exact .directiveError ((list hn).trans hi)
  | directiveEnd => exact .directiveEnd
  | directiveName h => exact .directiveName h
  | instruction hm hi _ ih =>
    refine .instruction hm hi (ih fun h => hn ?_)
    obtain ⟨b, used, rfl, _, _⟩ := itemList_ok _ (Nat.le_refl _) hi
    exact openBefore_push (_ :: used) h
  | instructionError hm hi => exact .instructionError hm hi
  | statement hb hs => exact .statement hb hs

theorem asking_of_open {b : Bool} {args : List Token} {xs : List Literal} (h : ItemList LiteralTok b args xs) (hb : b = true) :
    Asking litItem args xs := by
  induction h with
  | empty => exact .empty
  | one _ => cases hb
  | more hx _ ih => exact .more ((litItem_iff _ _).2 hx) (ih hb)

theorem split_at_marker {args ts a : List Token} {m : Token} {r : List Token} (h : m ∉ args) (e : args ++ ts = a ++ m :: r) :
    ∃ a', ts = a' ++ m :: r := by
  rcases List.append_eq_append_iff.1 e with ⟨a', _, h2⟩ | ⟨c, h1, h2⟩
  · exact ⟨a', h2⟩
  · cases c with
    | nil => exact ⟨[], by simpa using h2.symm⟩
    | cons x c =>
      simp only [List.cons_append, List.cons.injEq] at h2
      exact (h (by rw [h1, h2.1]; simp)).elim

theorem listItems_no_marker {α : Type} {item : Token → Option α} (hitem : ∀ l, item (.directiveMarker l) = none)
    {b : Bool} {ts : List Token} {xs : List α} (h : ItemList (fun t x => item t = some x) b ts xs) (l : Loc) :
    .directiveMarker l ∉ ts := by
  have ne : ∀ {t x}, item t = some x → Token.directiveMarker l ≠ t := by
    rintro t x hx rfl
    rw [hitem] at hx
    cases hx
  induction h with
  | empty => simp
  | one hx => simpa using ne hx
  | more hx _ ih =>
    simp only [List.mem_cons, not_or]
    exact ⟨ne hx, by simp, ih⟩

/-- What the parser accepts has no comment after an open list of arguments. -/
theorem outcome_no_open {ts : List Token} {out : Except ParseError (List Node)} (h : ParseOutcome ts out) {ns : List Node}
    (hn : out = .ok ns) : ¬ OpenBeforeComment ts := by
  induction h generalizing ns with
  | empty =>
    rintro ⟨p, l', s, l, args, xs, c, b, e, _⟩
    simp at e
  | @blank t ts out hb _ ih =>
    rintro ⟨p, l', s, l, args, xs, c, b, e, h1, h2⟩
    cases p with
    | nil =>
      simp only [List.nil_append, List.cons.injEq] at e
      rw [e.1] at hb
      cases hb
    | cons t' p =>
      simp only [List.cons_append, List.cons.injEq] at e
      exact ih hn ⟨p, l', s, l, args, xs, c, b, e.2, h1, h2⟩
  | label _ ih =>
    obtain ⟨x, hx, rfl⟩ := except_map_ok hn
    rintro ⟨p, l', s, l, args, xs, c, b, e, h1, h2⟩
    cases p with
    | nil => simp at e
    | cons t' p =>
      cases p with
      | nil => simp at e
      | cons t'' p =>
        simp only [List.cons_append, List.cons.injEq] at e
        exact ih hx ⟨p, l', s, l, args, xs, c, b, e.2.2, h1, h2⟩
  | directive hi _ ih =>
    obtain ⟨x, hx, rfl⟩ := except_map_ok hn
    rintro ⟨p, l', s, l, args, xs, c, b, e, h1, h2⟩
    cases p with
    | nil =>
      simp only [List.nil_append, List.cons.injEq] at e
      obtain ⟨_, _, rfl⟩ := e
      obtain ⟨cs, cl, rfl⟩ := h2
      rw [asking_error lit_proper (asking_of_open h1 rfl) (.singleLineComment cs cl :: b) (e := .unexpectedToken litExp
        (.singleLineComment cs cl)) rfl] at hi
      cases hi
    | cons t' p =>
      cases p with
      | nil => simp at e
      | cons t'' p =>
        simp only [List.cons_append, List.cons.injEq] at e
        obtain ⟨_, used, rfl, h3, _⟩ := itemList_ok _ (Nat.le_refl _) hi
        obtain ⟨a', h4⟩ := split_at_marker (listItems_no_marker (fun _ => rfl) h3 l') e.2.2
        exact ih hx ⟨a', l', s, l, args, xs, c, b, h4, h1, h2⟩
  | instruction hm hi _ ih =>
    obtain ⟨x, hx, rfl⟩ := except_map_ok hn
    rintro ⟨p, l', s, l, args, xs, c, b, e, h1, h2⟩
    cases p with
    | nil => simp at e
    | cons t' p =>
      simp only [List.cons_append, List.cons.injEq] at e
      obtain ⟨_, used, rfl, h3, _⟩ := itemList_ok _ (Nat.le_refl _) hi
      obtain ⟨a', h4⟩ := split_at_marker (listItems_no_marker (fun _ => rfl) h3 l') e.2
      exact ih hx ⟨a', l', s, l, args, xs, c, b, h4, h1, h2⟩
  | _ => cases hn

end C8S
