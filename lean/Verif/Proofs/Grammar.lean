import Verif.Proofs.ParseList

/- The parser accepts exactly the programs of the grammar, and stops at the first token that fits no program. -/

namespace C8S

open Spec

theorem ItemListCongr {α : Type} {item item' : Token → α → Prop} (h : ∀ t x, item t x → item' t x) {b : Bool}
    {ts : List Token} {xs : List α} (hi : ItemList item b ts xs) : ItemList item' b ts xs := by
  induction hi with
  | empty => exact .empty
  | one hx => exact .one (h _ _ hx)
  | more hx _ ih => exact .more (h _ _ hx) ih

/-- A program begins with neither a comma nor a label marker. -/
theorem program_head {ts : List Token} {ns : List Node} (h : Program ts ns) : ¬ StartsComma ts ∧ ¬ StartsMarker ts := by
  cases h with
  | empty => simp [StartsComma, StartsMarker]
  | blank hb _ =>
    rcases hb with ⟨l, rfl⟩ | ⟨s, l, rfl⟩ <;> simp [StartsComma, StartsMarker]
  | label _ => simp [StartsComma, StartsMarker]
  | directive _ _ _ => simp [StartsComma, StartsMarker]
  | instruction _ _ _ => simp [StartsComma, StartsMarker]

theorem except_map_ok {α β ε : Type} {f : α → β} {out : Except ε α} {y : β} (h : out.map f = .ok y) :
    ∃ x, out = .ok x ∧ f x = y := by
  cases out with
  | error e => simp [Except.map] at h
  | ok x =>
    simp [Except.map] at h
    exact ⟨x, rfl, h⟩

theorem except_map_error {α β ε : Type} {f : α → β} {out : Except ε α} {e : ε} (h : out.map f = .error e) :
    out = .error e := by
  cases out with
  | error e' =>
    simp [Except.map] at h
    rw [h]
  | ok x => simp [Except.map] at h

theorem outcome_ok {ts : List Token} {out : Except ParseError (List Node)} (h : ParseOutcome ts out) {ns : List Node}
    (hn : out = .ok ns) : Program ts ns := by
  induction h generalizing ns with
  | empty => cases hn; exact .empty
  | blank hb _ ih => exact .blank ((isBlankTok_iff _).1 hb) (ih hn)
  | label _ ih =>
    obtain ⟨x, hx, rfl⟩ := except_map_ok hn
    exact .label (ih hx)
  | directive hi _ ih =>
    obtain ⟨x, hx, rfl⟩ := except_map_ok hn
    obtain ⟨b, used, rfl, h1, h2⟩ := itemList_ok _ (Nat.le_refl _) hi
    refine .directive (ItemListCongr (fun t x => (litItem_iff t x).1) h1) ?_ (ih hx)
    intro hb
    simp only [Follows, hb, if_true] at h2
    obtain ⟨t, r, h3, h4⟩ := h2
    exact ⟨t, r, h3, (litStop_iff t).1 h4⟩
  | instruction hm hi _ ih =>
    obtain ⟨x, hx, rfl⟩ := except_map_ok hn
    obtain ⟨b, used, rfl, h1, h2⟩ := itemList_ok _ (Nat.le_refl _) hi
    refine .instruction (ItemListCongr (fun t x => (fieldItem_iff t x).1) h1) ?_ (ih hx)
    intro hb
    simp only [Follows, hb, if_true] at h2
    obtain ⟨t, r, h3, h4⟩ := h2
    exact ⟨t, r, h3, (fieldStop_iff t).1 h4⟩
  | _ => cases hn

theorem itemList_marker {isOpen : Bool} {args ts : List Token} {fs : List Field} (hi : ItemList OperandTok isOpen args fs)
    (ho : isOpen → ¬ StartsMarker ts) : ¬ StartsMarker (args ++ ts) := by
  cases hi with
  | empty => exact ho rfl
  | one hx => cases hx <;> simp [StartsMarker]
  | more hx _ => cases hx <;> simp [StartsMarker]

theorem program_outcome {ts : List Token} {ns : List Node} (h : Program ts ns) : ParseOutcome ts (.ok ns) := by
  induction h with
  | empty => exact .empty
  | blank hb _ ih => exact .blank ((isBlankTok_iff _).2 hb) ih
  | label _ ih => exact .label ih
  | @directive s l l' isOpen args ts xs ns hi ho hp ih =>
    have h1 := ItemListCongr (fun t x => (litItem_iff t x).2) hi
    have hf : Follows litStop isOpen ts := by
      cases isOpen with
      | false => simpa [Follows] using (program_head hp).1
      | true =>
        obtain ⟨t, r, h3, h4⟩ := ho rfl
        exact ⟨t, r, h3, (litStop_iff t).2 h4⟩
    exact .directive (itemList_of lit_proper h1 hf) ih
  | @instruction s l isOpen args ts fs ns hi ho hp ih =>
    have h1 := ItemListCongr (fun t x => (fieldItem_iff t x).2) hi
    have hf : Follows fieldStop isOpen ts := by
      cases isOpen with
      | false => simpa [Follows] using (program_head hp).1
      | true =>
        obtain ⟨t, r, h3, h4⟩ := ho rfl
        exact ⟨t, r, h3, (fieldStop_iff t).2 h4⟩
    exact .instruction (itemList_marker hi fun _ => (program_head hp).2) (itemList_of field_proper h1 hf) ih

theorem parse_ok_iff (ts : List Token) (ns : List Node) : parse ts = .ret (.ok ns) ↔ Program ts ns :=
  (parse_iff ts _).trans ⟨fun h => outcome_ok h rfl, program_outcome⟩

theorem program_unique {ts : List Token} {ns ns' : List Node} (h : Program ts ns) (h' : Program ts ns') : ns = ns' := by
  have := outcome_unique (program_outcome h) (program_outcome h')
  injection this

/-! ### Lexical errors -/

theorem items_no_error {α : Type} {item : Token → α → Prop} (hitem : ∀ t x, item t x → ∀ e l, t ≠ .error e l)
    {b : Bool} {ts : List Token} {xs : List α} (h : ItemList item b ts xs) (e : ScanError) (l : Loc) :
    .error e l ∉ ts := by
  induction h with
  | empty => simp
  | one hx =>
    simp only [List.mem_singleton]
    exact fun h => hitem _ _ hx e l h.symm
  | more hx _ ih =>
    simp only [List.mem_cons, not_or]
    exact ⟨fun h => hitem _ _ hx e l h.symm, by simp, ih⟩

theorem literal_no_error (t : Token) (x : Literal) (h : LiteralTok t x) (e : ScanError) (l : Loc) : t ≠ .error e l := by
  cases h <;> simp

theorem operand_no_error (t : Token) (x : Field) (h : OperandTok t x) (e : ScanError) (l : Loc) : t ≠ .error e l := by
  cases h <;> simp

theorem program_no_error {ts : List Token} {ns : List Node} (h : Program ts ns) (e : ScanError) (l : Loc) :
    .error e l ∉ ts := by
  induction h with
  | empty => simp
  | blank hb _ ih =>
    simp only [List.mem_cons, not_or]
    refine ⟨?_, ih⟩
    rcases hb with ⟨l, rfl⟩ | ⟨s, l, rfl⟩ <;> simp
  | label _ ih => simp [ih]
  | directive hi _ _ ih => simp [ih, items_no_error literal_no_error hi]
  | instruction hi _ _ ih => simp [ih, items_no_error operand_no_error hi]

/-! ### Errors -/

/-- A token that neither ends a line or a statement nor separates operands. -/
def plain : Token → Bool
  | .newline _ => false
  | .singleLineComment _ _ => false
  | .comma _ => false
  | .labelMarker _ => false
  | _ => true

theorem plain_iff (t : Token) : plain t = true ↔ ¬ Separates t := by
  cases t <;> simp [plain, Separates, IsNewline, IsComment]

/-- What an error says about the tokens: it is at the first token that fits no program, the one behind `pre`; everything
that is named as expected fits there, and no other plain token does. -/
def ErrorAfter (pre ts : List Token) (exp : List Str) (found : Option Token) : Prop :=
  (match found with
    | none => ts = pre
    | some t => (∃ post, ts = pre ++ t :: post) ∧
        ∀ ext, ParseOutcome (pre ++ t :: ext) (.error (.unexpectedToken exp t))) ∧
  (∃ ext ns, ParseOutcome (pre ++ ext) (.ok ns)) ∧
  exp ≠ [] ∧
  (∀ name ∈ exp, (∃ tok, Expected name tok) ∧ ∀ tok, Expected name tok → ∃ ext ns, ParseOutcome (pre ++ tok :: ext) (.ok ns)) ∧
  ∀ tok, plain tok = true → (∀ name ∈ exp, ¬ Expected name tok) →
    ∀ ext, ParseOutcome (pre ++ tok :: ext) (.error (.unexpectedToken exp tok))

def ErrorAt (ts : List Token) (exp : List Str) (found : Option Token) : Prop := ∃ pre, ErrorAfter pre ts exp found

/-- Where the parser stops: nothing is left, or no item and no end of the list. -/
def BadItem {α : Type} (item : Token → Option α) (stop : Token → Bool) (r : List Token) : Prop :=
  r = [] ∨ ∃ t post, r = t :: post ∧ item t = none ∧ stop t = false

/-- The parser rejects the tokens after reading `pre`. -/
inductive ErrorPos : List Token → List Token → Prop where
  | blank {t : Token} {ts pre : List Token} : isBlankTok t = true → ErrorPos ts pre → ErrorPos (t :: ts) (t :: pre)
  | label {s : Str} {l l' : Loc} {ts pre : List Token} : ErrorPos ts pre →
    ErrorPos (.identifier s l :: .labelMarker l' :: ts) (.identifier s l :: .labelMarker l' :: pre)
  | directive {s : Str} {l l' : Loc} {used rest pre : List Token} {xs : List Literal} :
    itemList litItem litStop litExp (used ++ rest) = .ok (xs, rest) → ErrorPos rest pre →
    ErrorPos (.directiveMarker l' :: .identifier s l :: (used ++ rest)) (.directiveMarker l' :: .identifier s l :: (used ++ pre))
  | directiveError {s : Str} {l l' : Loc} {used r : List Token} {xs : List Literal} : Asking litItem used xs →
    BadItem litItem litStop r →
    ErrorPos (.directiveMarker l' :: .identifier s l :: (used ++ r)) (.directiveMarker l' :: .identifier s l :: used)
  | directiveName {l' : Loc} {r : List Token} : (∀ s l q, r ≠ .identifier s l :: q) →
    ErrorPos (.directiveMarker l' :: r) [.directiveMarker l']
  | instruction {s : Str} {l : Loc} {used rest pre : List Token} {fs : List Field} : ¬ StartsMarker (used ++ rest) →
    itemList fieldItem fieldStop fieldExp (used ++ rest) = .ok (fs, rest) → ErrorPos rest pre →
    ErrorPos (.identifier s l :: (used ++ rest)) (.identifier s l :: (used ++ pre))
  | instructionError {s : Str} {l : Loc} {used r : List Token} {fs : List Field} : ¬ StartsMarker (used ++ r) →
    Asking fieldItem used fs → BadItem fieldItem fieldStop r →
    ErrorPos (.identifier s l :: (used ++ r)) (.identifier s l :: used)
  | statement {t : Token} {ts : List Token} : isBlankTok t = false → starts t = false → ErrorPos (t :: ts) []

def found : ParseError → Option Token
  | .unexpectedEndOfFile _ => none
  | .unexpectedToken _ t => some t

def expected : ParseError → List Str
  | .unexpectedEndOfFile e => e
  | .unexpectedToken e _ => e

theorem parseError_eta (e : ParseError) :
    (found e = none ∧ e = .unexpectedEndOfFile (expected e)) ∨ ∃ t, found e = some t ∧ e = .unexpectedToken (expected e) t := by
  cases e with
  | unexpectedEndOfFile e => exact .inl ⟨rfl, rfl⟩
  | unexpectedToken e t => exact .inr ⟨t, rfl, rfl⟩

def anyLoc : Loc := ⟨[], 1, 1, 1⟩

/-- Moving an error past a statement. `fits` is the condition on what follows the statement. -/
theorem ErrorAfter.push {used rest pre : List Token} {exp : List Str} {fnd : Option Token} {f : List Node → List Node}
    {fits : List Token → Prop} (h : ErrorAfter pre rest exp fnd) (hrest : fits rest)
    (hout : ∀ rest' out, fits rest' → ParseOutcome rest' out → ParseOutcome (used ++ rest') (out.map f))
    (hhead : ∀ a r r', fits (a :: r) → fits (a :: r'))
    (hnewline : fits [.newline anyLoc])
    (hkind : ((∀ rest' ns, ParseOutcome rest' (.ok ns) → fits rest') ∧ ∀ tok r, plain tok = true → fits (tok :: r)) ∨
      (∀ rest', fits rest' → ∃ t r, rest' = t :: r ∧ isBlankTok t = true)) :
    ErrorAfter (used ++ pre) (used ++ rest) exp fnd := by
  obtain ⟨hpos, ⟨ext, ns, hc⟩, hne, hv, hu⟩ := h
  have hok : ∀ rest' ns, fits rest' → ParseOutcome rest' (.ok ns) → ParseOutcome (used ++ rest') (.ok (f ns)) :=
    fun rest' ns h1 h2 => hout rest' (.ok ns) h1 h2
  -- the head of what has been read is the head of `rest`
  have hpre : ∀ a p, pre = a :: p → ∀ ext, fits (pre ++ ext) := by
    rintro a p rfl ext
    cases fnd with
    | none =>
      simp only at hpos
      rw [List.cons_append]
      exact hhead a p _ (hpos ▸ hrest)
    | some t =>
      simp only at hpos
      obtain ⟨⟨post, rfl⟩, _⟩ := hpos
      rw [List.cons_append] at hrest ⊢
      exact hhead a _ _ hrest
  -- an error at the very start of `rest` is not after an open list
  have hblank : pre = [] → ¬ ∀ rest', fits rest' → ∃ t r, rest' = t :: r ∧ isBlankTok t = true := by
    rintro rfl hk
    obtain ⟨t, r, rfl, hb⟩ := hk rest hrest
    cases fnd with
    | none => simp at hpos
    | some t' =>
      simp only [List.nil_append] at hpos
      obtain ⟨⟨post, he⟩, herr⟩ := hpos
      injection he with he
      subst he
      have := outcome_unique (herr []) (.blank hb .empty)
      cases this
  refine ⟨?_, ?_, hne, ?_, ?_⟩
  · cases fnd with
    | none =>
      simp only at hpos ⊢
      rw [hpos]
    | some t =>
      simp only at hpos ⊢
      obtain ⟨⟨post, rfl⟩, herr⟩ := hpos
      refine ⟨⟨post, by simp⟩, ?_⟩
      intro ext
      rw [List.append_assoc]
      refine hout _ (.error (.unexpectedToken exp t)) ?_ (herr ext)
      cases pre with
      | nil => exact hhead t _ _ hrest
      | cons a p => exact hpre a p rfl _
  · cases pre with
    | nil => exact ⟨[.newline anyLoc], _, by simpa using hok _ [] hnewline (.blank rfl .empty)⟩
    | cons a p =>
      refine ⟨ext, f ns, ?_⟩
      rw [List.append_assoc]
      exact hok _ _ (hpre a p rfl ext) hc
  · intro name hname
    refine ⟨(hv name hname).1, fun tok htok => ?_⟩
    obtain ⟨ext, ns, h2⟩ := (hv name hname).2 tok htok
    refine ⟨ext, f ns, ?_⟩
    rw [List.append_assoc]
    refine hok _ _ ?_ h2
    cases pre with
    | cons a p => exact hpre a p rfl _
    | nil =>
      rcases hkind with hk | hk
      · exact hk.1 _ _ h2
      · exact (hblank rfl hk).elim
  · intro tok hp hx ext
    rw [List.append_assoc]
    refine hout _ (.error (.unexpectedToken exp tok)) ?_ (hu tok hp hx ext)
    cases pre with
    | cons a p => exact hpre a p rfl _
    | nil =>
      rcases hkind with hk | hk
      · exact hk.2 _ _ hp
      · exact (hblank rfl hk).elim

theorem follows_head (stop : Token → Bool) (b : Bool) (a : Token) (r r' : List Token) (h : Follows stop b (a :: r)) :
    Follows stop b (a :: r') := by
  cases b with
  | false =>
    simp only [Follows, Bool.false_eq_true, if_false] at h ⊢
    rintro ⟨l, q, hq⟩
    injection hq with h1 h2
    exact h ⟨l, r, by rw [h1]⟩
  | true =>
    simp only [Follows, if_true] at h ⊢
    obtain ⟨t, q, hq, hs⟩ := h
    injection hq with h1 h2
    exact ⟨t, r', by rw [h1], hs⟩

theorem follows_newline {stop : Token → Bool} (hs : ∀ l, stop (.newline l) = true) (b : Bool) :
    Follows stop b [.newline anyLoc] := by
  cases b with
  | false => simp [Follows, StartsComma]
  | true => exact ⟨_, _, rfl, hs _⟩

theorem follows_kind {stop : Token → Bool} (hs : ∀ t, stop t = true → isBlankTok t = true) (b : Bool) :
    ((∀ rest' ns, ParseOutcome rest' (.ok ns) → Follows stop b rest') ∧ ∀ tok r, plain tok = true → Follows stop b (tok :: r)) ∨
      (∀ rest', Follows stop b rest' → ∃ t r, rest' = t :: r ∧ isBlankTok t = true) := by
  cases b with
  | false =>
    left
    refine ⟨?_, ?_⟩
    · intro rest' ns h
      simpa [Follows] using (program_head (outcome_ok h rfl)).1
    · intro tok r h
      simp only [Follows, Bool.false_eq_true, if_false]
      rintro ⟨l, q, hq⟩
      injection hq with h1 h2
      subst h1
      simp [plain] at h
  | true =>
    right
    rintro rest' ⟨t, r, rfl, h⟩
    exact ⟨t, r, rfl, hs t h⟩

theorem litStop_blank (t : Token) (h : litStop t = true) : isBlankTok t = true := by
  cases t <;> simp_all [litStop, isBlankTok]

theorem fieldStop_blank (t : Token) (h : fieldStop t = true) : isBlankTok t = true := h

theorem asking_marker {α : Type} {item : Token → Option α} (hitem : ∀ l, item (.labelMarker l) = none)
    {used : List Token} {xs : List α} (h : Asking item used xs) {rest : List Token} (hr : used = [] → ¬ StartsMarker rest) :
    ¬ StartsMarker (used ++ rest) := by
  cases h with
  | empty => exact hr rfl
  | more hx _ =>
    rintro ⟨l, r, he⟩
    simp only [List.cons_append, List.cons.injEq] at he
    rw [he.1, hitem] at hx
    cases hx

/-- An error within a list. `wrap` are the tokens before the list. -/
theorem list_error {α : Type} {item : Token → Option α} {stop : Token → Bool} {exp : List Str} {as wrap : List Token}
    {e : ParseError} (hp : Proper item stop) (hitem : ∀ l, item (.labelMarker l) = none)
    (hi : itemList item stop exp as = .error e) (hm : ¬ StartsMarker as)
    (herr : ∀ as' e, itemList item stop exp as' = .error e → ¬ StartsMarker as' → ParseOutcome (wrap ++ as') (.error e))
    (hok : ∀ as' xs rest ns, itemList item stop exp as' = .ok (xs, rest) → ¬ StartsMarker as' → ParseOutcome rest (.ok ns) →
      ∃ ns', ParseOutcome (wrap ++ as') (.ok ns'))
    (hne : exp ≠ []) (hvia : ∀ name ∈ exp, (∃ tok, Expected name tok) ∧ ∀ tok, Expected name tok → ∃ x, item tok = some x)
    (hother : ∀ tok, plain tok = true → (∀ name ∈ exp, ¬ Expected name tok) → item tok = none ∧ stop tok = false) :
    ∃ used xs r, as = used ++ r ∧ Asking item used xs ∧ BadItem item stop r ∧
      ErrorAfter (wrap ++ used) (wrap ++ as) (expected e) (found e) := by
  obtain ⟨used, xs, ha, hcases⟩ := itemList_error _ (Nat.le_refl _) hi
  have hcomp : ∃ ext ns, ParseOutcome (wrap ++ used ++ ext) (.ok ns) := by
    obtain ⟨ns, h⟩ := hok (used ++ [.newline anyLoc]) xs [.newline anyLoc] []
      (itemList_of hp ha.open (follows_newline hp.stop_newline true))
      (asking_marker hitem ha (fun _ => by simp [StartsMarker])) (.blank rfl .empty)
    exact ⟨_, ns, by rw [List.append_assoc]; exact h⟩
  have huni : ∀ tok, plain tok = true → (∀ name ∈ exp, ¬ Expected name tok) →
      ∀ ext, ParseOutcome (wrap ++ used ++ tok :: ext) (.error (.unexpectedToken exp tok)) := by
    intro tok hpl hx ext
    obtain ⟨h1, h2⟩ := hother tok hpl hx
    rw [List.append_assoc]
    refine herr _ _ (asking_error hp ha (tok :: ext) ?_) (asking_marker hitem ha ?_)
    · simp [itemList, h2, h1]
    · rintro rfl ⟨l, r, he⟩
      injection he with h3 h4
      subst h3
      simp [plain] at hpl
  have hview : ∀ name ∈ exp, (∃ tok, Expected name tok) ∧
      ∀ tok, Expected name tok → ∃ ext ns, ParseOutcome (wrap ++ used ++ tok :: ext) (.ok ns) := by
    intro name hname
    refine ⟨(hvia name hname).1, fun tok htok => ?_⟩
    obtain ⟨x, h2⟩ := (hvia name hname).2 tok htok
    obtain ⟨ns, h⟩ := hok ((used ++ [tok]) ++ [.newline anyLoc]) (xs ++ [x]) [.newline anyLoc] []
      (itemList_of hp (ha.one h2) (follows_newline hp.stop_newline false))
      (by
        rw [List.append_assoc]
        refine asking_marker hitem ha (fun _ => ?_)
        rintro ⟨l, r, he⟩
        simp only [List.cons_append, List.cons.injEq] at he
        rw [he.1, hitem] at h2
        cases h2) (.blank rfl .empty)
    exact ⟨[.newline anyLoc], ns, by simpa using h⟩
  rcases hcases with ⟨rfl, rfl⟩ | ⟨t, post, rfl, h1, h2, rfl⟩
  · exact ⟨as, xs, [], by simp, ha, .inl rfl, rfl, hcomp, hne, hview, huni⟩
  · refine ⟨used, xs, t :: post, rfl, ha, .inr ⟨t, post, rfl, h1, h2⟩, ⟨⟨post, by simp⟩, ?_⟩, hcomp, hne, hview, huni⟩
    intro ext
    rw [List.append_assoc]
    refine herr _ _ (asking_error hp ha (t :: ext) ?_) (asking_marker hitem ha ?_)
    · simp [itemList, h2, h1, expected]
    · rintro rfl ⟨l, r, he⟩
      injection he with h3 h4
      exact hm ⟨l, post, by rw [h3]; rfl⟩

theorem lit_viable : ∀ name ∈ litExp, (∃ tok, Expected name tok) ∧ ∀ tok, Expected name tok → ∃ x, litItem tok = some x := by
  intro name h
  refine ⟨?_, ?_⟩
  · simp only [litExp, List.mem_cons, List.not_mem_nil, or_false] at h
    rcases h with rfl | rfl
    · exact ⟨.numericLiteral 0 anyLoc, .numeric⟩
    · exact ⟨.stringLiteral [] anyLoc, .string⟩
  · intro tok ht
    cases ht <;> simp [litExp, litItem] at h ⊢

theorem lit_other (tok : Token) (h : plain tok = true) (hx : ∀ name ∈ litExp, ¬ Expected name tok) :
    litItem tok = none ∧ litStop tok = false := by
  cases tok with
  | stringLiteral s l => exact (hx _ (by simp [litExp]) .string).elim
  | numericLiteral n l => exact (hx _ (by simp [litExp]) .numeric).elim
  | _ => simp_all [plain, litItem, litStop]

theorem field_viable : ∀ name ∈ fieldExp, (∃ tok, Expected name tok) ∧
    ∀ tok, Expected name tok → ∃ x, fieldItem tok = some x := by
  intro name h
  refine ⟨?_, ?_⟩
  · simp only [fieldExp, List.mem_cons, List.not_mem_nil, or_false] at h
    subst h
    exact ⟨.numericLiteral 0 anyLoc, .fieldNumeric⟩
  · intro tok ht
    cases ht with
    | @field s l =>
      obtain ⟨f, hf, _⟩ := fieldOfIdentifier_ret s
      exact ⟨f, by simp [fieldItem, hf]⟩
    | fieldNumeric => exact ⟨_, rfl⟩
    | _ => simp [fieldExp] at h

theorem field_other (tok : Token) (h : plain tok = true) (hx : ∀ name ∈ fieldExp, ¬ Expected name tok) :
    fieldItem tok = none ∧ fieldStop tok = false := by
  cases tok with
  | identifier s l => exact (hx _ (by simp [fieldExp]) .field).elim
  | numericLiteral n l => exact (hx _ (by simp [fieldExp]) .fieldNumeric).elim
  | _ => simp_all [plain, fieldItem, fieldStop]

theorem name_viable (l' : Loc) : ∀ name ∈ idExp, (∃ tok, Expected name tok) ∧
    ∀ tok, Expected name tok → ∃ ext ns, ParseOutcome ([.directiveMarker l'] ++ tok :: ext) (.ok ns) := by
  intro name h
  simp only [idExp, List.mem_cons, List.not_mem_nil, or_false] at h
  subst h
  refine ⟨⟨.identifier [] anyLoc, .identifier⟩, ?_⟩
  intro tok ht
  cases ht
  exact ⟨[.newline anyLoc], _, .directive (xs := []) (rest := [.newline anyLoc]) rfl (.blank rfl .empty)⟩

theorem name_other (l' : Loc) (tok : Token) (hx : ∀ name ∈ idExp, ¬ Expected name tok) (ext : List Token) :
    ParseOutcome ([.directiveMarker l'] ++ tok :: ext) (.error (.unexpectedToken idExp tok)) := by
  refine .directiveName ?_
  cases tok with
  | identifier s l => exact (hx _ (by simp [idExp]) .identifier).elim
  | _ => rfl

theorem outcome_position {ts : List Token} {out : Except ParseError (List Node)} (h : ParseOutcome ts out) {e : ParseError}
    (he : out = .error e) : ∃ pre, ErrorPos ts pre ∧ ErrorAfter pre ts (expected e) (found e) := by
  induction h generalizing e with
  | empty => cases he
  | @blank t ts out hb ho ih =>
    obtain ⟨pre, hpos, ih⟩ := ih he
    refine ⟨[t] ++ pre, .blank hb hpos, ErrorAfter.push (used := [t]) (f := id) (fits := fun _ => True) ih trivial ?_
      (fun _ _ _ h => h) trivial (.inl ⟨fun _ _ _ => trivial, fun _ _ _ => trivial⟩)⟩
    intro rest' out _ h
    have : out.map id = out := by cases out <;> rfl
    rw [this]
    exact .blank hb h
  | @label s l l' ts out ho ih =>
    obtain ⟨pre, hpos, ih⟩ := ih (except_map_error he)
    exact ⟨_, .label hpos, ErrorAfter.push (used := [.identifier s l, .labelMarker l']) (fits := fun _ => True) ih trivial
      (fun rest' out _ h => .label h) (fun _ _ _ h => h) trivial (.inl ⟨fun _ _ _ => trivial, fun _ _ _ => trivial⟩)⟩
  | @directive s l l' as rest xs out hi ho ih =>
    obtain ⟨pre, hpos, ih⟩ := ih (except_map_error he)
    obtain ⟨b, used, rfl, h1, h2⟩ := itemList_ok _ (Nat.le_refl _) hi
    exact ⟨_, .directive hi hpos, ErrorAfter.push (used := .directiveMarker l' :: .identifier s l :: used) (fits := Follows litStop b)
      ih h2
      (fun rest' out hf h => .directive (itemList_of lit_proper h1 hf) h) (follows_head _ _)
      (follows_newline lit_proper.stop_newline b) (follows_kind litStop_blank b)⟩
  | @directiveError s l l' as e' hi =>
    cases he
    by_cases hm : StartsMarker as
    · -- the label marker itself is the unexpected token
      obtain ⟨lm, r, rfl⟩ := hm
      simp [itemList, litStop, litItem] at hi
      subst hi
      refine ⟨[.directiveMarker l', .identifier s l], .directiveError .empty (.inr ⟨_, _, rfl, rfl, rfl⟩),
        ⟨⟨r, rfl⟩, ?_⟩, ?_, by simp [expected, litExp], ?_, ?_⟩
      · intro ext
        exact .directiveError (by simp [itemList, litStop, litItem, expected])
      · exact ⟨[.newline anyLoc], _, .directive (xs := []) (rest := [.newline anyLoc]) rfl (.blank rfl .empty)⟩
      · intro name hname
        refine ⟨(lit_viable name hname).1, fun tok htok => ?_⟩
        obtain ⟨x, h2⟩ := (lit_viable name hname).2 tok htok
        refine ⟨[], _, .directive (xs := [x]) (rest := []) (out := .ok []) ?_ .empty⟩
        simp [itemList, lit_proper.item_stop _ _ h2, h2]
      · intro tok hpl hx ext
        obtain ⟨h1, h2⟩ := lit_other tok hpl hx
        exact .directiveError (by simp [itemList, h1, h2, expected])
    · obtain ⟨used, xs, r, rfl, ha, hb, h⟩ := list_error (wrap := [.directiveMarker l', .identifier s l]) lit_proper (fun _ => rfl)
        hi hm (fun as' e h _ => .directiveError h) (fun as' xs rest ns h _ ho => ⟨_, .directive h ho⟩) (by decide) lit_viable lit_other
      exact ⟨_, .directiveError ha hb, h⟩
  | @directiveEnd l' =>
    cases he
    exact ⟨[.directiveMarker l'], .directiveName (by simp), rfl,
      ⟨[.identifier [] anyLoc, .newline anyLoc], _, .directive (xs := []) (rest := [.newline anyLoc]) rfl (.blank rfl .empty)⟩,
      by decide, name_viable l', fun tok _ hx ext => name_other l' tok hx ext⟩
  | @directiveName l' t ts hn =>
    cases he
    refine ⟨[.directiveMarker l'], .directiveName ?_, ⟨⟨ts, rfl⟩, fun ext => .directiveName hn⟩,
      ⟨[.identifier [] anyLoc, .newline anyLoc], _, .directive (xs := []) (rest := [.newline anyLoc]) rfl (.blank rfl .empty)⟩,
      by simp [expected, idExp], name_viable l', fun tok _ hx ext => name_other l' tok hx ext⟩
    intro s l q e
    injection e with e1 e2
    subst e1
    simp [isIdent] at hn
  | @instruction s l as rest fs out hm hi ho ih =>
    obtain ⟨pre, hpos, ih⟩ := ih (except_map_error he)
    obtain ⟨b, used, rfl, h1, h2⟩ := itemList_ok _ (Nat.le_refl _) hi
    have h1' := ItemListCongr (fun t x => (fieldItem_iff t x).1) h1
    refine ⟨_, .instruction hm hi hpos, ErrorAfter.push (used := .identifier s l :: used) (fits := Follows fieldStop b)
      (f := (.instruction l s fs :: ·)) ih h2 ?_ (follows_head _ _) (follows_newline field_proper.stop_newline b)
      (follows_kind fieldStop_blank b)⟩
    intro rest' out hf h
    refine .instruction (itemList_marker h1' ?_) (itemList_of field_proper h1 hf) h
    rintro hb ⟨lm, r, rfl⟩
    rw [hb] at hf
    obtain ⟨t, q, hq, hs⟩ := hf
    injection hq with hq1 _
    subst hq1
    simp [fieldStop] at hs
  | @instructionError s l as e' hm hi =>
    cases he
    obtain ⟨used, xs, r, rfl, ha, hb, h⟩ := list_error (wrap := [.identifier s l]) field_proper (fun _ => rfl) hi hm
      (fun as' e h hm => .instructionError hm h) (fun as' xs rest ns h hm ho => ⟨_, .instruction hm h ho⟩) (by decide)
      field_viable field_other
    exact ⟨_, .instructionError hm ha hb, h⟩
  | @statement t ts hb hs =>
    cases he
    refine ⟨[], .statement hb hs, ⟨⟨ts, rfl⟩, fun ext => .statement hb hs⟩, ⟨[], [], .empty⟩, by simp [expected, stmtExp],
      ?_, ?_⟩
    · intro name hname
      simp only [expected, stmtExp, List.mem_cons, List.not_mem_nil, or_false] at hname
      rcases hname with rfl | rfl
      · refine ⟨⟨.directiveMarker anyLoc, .directiveMarker⟩, fun tok htok => ?_⟩
        cases htok
        exact ⟨[.identifier [] anyLoc, .newline anyLoc], _,
          .directive (xs := []) (rest := [.newline anyLoc]) rfl (.blank rfl .empty)⟩
      · refine ⟨⟨.identifier [] anyLoc, .identifier⟩, fun tok htok => ?_⟩
        cases htok
        exact ⟨[.labelMarker anyLoc], _, .label .empty⟩
    · intro tok hpl hx ext
      refine .statement ?_ ?_
      · cases tok <;> simp_all [plain, isBlankTok]
      · cases tok with
        | identifier s l => exact (hx _ (by simp [expected, stmtExp]) .identifier).elim
        | directiveMarker l => exact (hx _ (by simp [expected, stmtExp]) .directiveMarker).elim
        | _ => rfl

theorem outcome_error {ts : List Token} {out : Except ParseError (List Node)} (h : ParseOutcome ts out) {e : ParseError}
    (he : out = .error e) : ErrorAt ts (expected e) (found e) := by
  obtain ⟨pre, _, h⟩ := outcome_position h he
  exact ⟨pre, h⟩

theorem expected_litExp {name : Str} {t : Token} (h : Expected name t) (hn : name ∈ litExp) : litItem t ≠ none := by
  cases h <;> simp [litExp, litItem] at hn ⊢

theorem expected_fieldExp {name : Str} {t : Token} (h : Expected name t) (hn : name ∈ fieldExp) : fieldItem t ≠ none := by
  have hid : ∀ (s : Str) (l : Loc), fieldItem (.identifier s l) ≠ none := by
    intro s l
    obtain ⟨f, hf, _⟩ := fieldOfIdentifier_ret s
    simp [fieldItem, hf]
  cases h with
  | field => exact hid _ _
  | fieldNumeric => simp [fieldItem]
  | _ => simp [fieldExp] at hn

/-- An error does not name the kind of the token it is about. -/
theorem outcome_not_expected {ts : List Token} {out : Except ParseError (List Node)} (h : ParseOutcome ts out)
    {names : List Str} {t : Token} (he : out = .error (.unexpectedToken names t)) : ∀ name ∈ names, ¬ Expected name t := by
  induction h with
  | empty => cases he
  | blank _ _ ih => exact ih he
  | label _ ih => exact ih (except_map_error he)
  | directive _ _ ih => exact ih (except_map_error he)
  | instruction _ _ _ ih => exact ih (except_map_error he)
  | directiveError hl =>
    cases he
    obtain ⟨_, _, _, ⟨_, h⟩ | ⟨t', post, _, h1, _, h2⟩⟩ := itemList_error _ (Nat.le_refl _) hl
    · cases h
    · cases h2
      exact fun name hn hx => expected_litExp hx hn h1
  | instructionError _ hl =>
    cases he
    obtain ⟨_, _, _, ⟨_, h⟩ | ⟨t', post, _, h1, _, h2⟩⟩ := itemList_error _ (Nat.le_refl _) hl
    · cases h
    · cases h2
      exact fun name hn hx => expected_fieldExp hx hn h1
  | directiveEnd => cases he
  | directiveName hi =>
    cases he
    intro name hn hx
    cases hx <;> simp [idExp, isIdent] at hn hi
  | statement _ hi =>
    cases he
    intro name hn hx
    cases hx <;> simp [stmtExp, starts] at hn hi

/-- The first token that fits no program is in one place only. -/
theorem first_bad_unique {pre post p q : List Token} {t t' : Token} (h : pre ++ t :: post = p ++ t' :: q)
    (hpre : Completable pre) (ht : ¬ Completable (pre ++ [t])) (hp : Completable p) (hpt : ¬ Completable (p ++ [t'])) :
    pre = p := by
  rcases List.append_eq_append_iff.1 h with ⟨a, h1, h2⟩ | ⟨a, h1, h2⟩
  · cases a with
    | nil => simpa using h1.symm
    | cons x a =>
      simp only [List.cons_append, List.cons.injEq] at h2
      obtain ⟨rfl, _⟩ := h2
      refine (ht ?_).elim
      obtain ⟨e, n, hc⟩ := hp
      exact ⟨a ++ e, n, by rw [h1] at hc; simpa using hc⟩
  · cases a with
    | nil => simpa using h1
    | cons x a =>
      simp only [List.cons_append, List.cons.injEq] at h2
      obtain ⟨rfl, _⟩ := h2
      refine (hpt ?_).elim
      obtain ⟨e, n, hc⟩ := hpre
      exact ⟨a ++ e, n, by rw [h1] at hc; simpa using hc⟩

end C8S
