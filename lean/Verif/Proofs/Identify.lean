import Verif.Spec.Identify
import Verif.Proofs.Printed
import Verif.Proofs.Profile

/- Lemmas for C106: a message identifies what is wrong and where. -/

namespace C8S

open Spec

/-! ### Texts -/

/-- A stretch of characters of a kind, up to one of another kind, is determined. -/
theorem stretch_unique {P : Char → Prop} {a a' r r' : Str} (h : ∀ c ∈ a, P c) (h' : ∀ c ∈ a', P c)
    (hr : ∀ c, r.head? = some c → ¬ P c) (hr' : ∀ c, r'.head? = some c → ¬ P c) (e : a ++ r = a' ++ r') :
    a = a' ∧ r = r' := by
  induction a generalizing a' with
  | nil =>
    cases a' with
    | nil => exact ⟨rfl, e⟩
    | cons c t =>
      rw [List.nil_append] at e
      exact (hr c (by rw [e]; rfl) (h' c List.mem_cons_self)).elim
  | cons c t ih =>
    cases a' with
    | nil =>
      rw [List.nil_append] at e
      exact (hr' c (by rw [← e]; rfl) (h c List.mem_cons_self)).elim
    | cons c' t' =>
      rw [List.cons_append, List.cons_append] at e
      injection e with e1 e2
      subst e1
      obtain ⟨h1, h2⟩ := ih (fun d hd => h d (List.mem_cons_of_mem _ hd)) (fun d hd => h' d (List.mem_cons_of_mem _ hd)) e2
      exact ⟨by rw [h1], h2⟩

theorem stretch_cons {P : Char → Prop} {a a' r r' : Str} {x y : Char} (h : ∀ c ∈ a, P c) (h' : ∀ c ∈ a', P c)
    (hx : ¬ P x) (hy : ¬ P y) (e : a ++ x :: r = a' ++ y :: r') : a = a' ∧ x = y ∧ r = r' := by
  obtain ⟨h1, h2⟩ := stretch_unique h h' (fun c hc => by cases hc; exact hx) (fun c hc => by cases hc; exact hy) e
  injection h2 with h2 h3
  exact ⟨h1, h2, h3⟩

/-- The texts differ at a place within both. -/
def clash : Str → Str → Bool
  | c :: p, d :: q => c ≠ d || clash p q
  | _, _ => false

theorem clash_ne {p q : Str} (h : clash p q = true) (v v' : Str) : p ++ v ≠ q ++ v' := by
  induction p generalizing q with
  | nil => cases q <;> cases h
  | cons c p ih =>
    cases q with
    | nil => cases h
    | cons d q =>
      intro e
      rw [List.cons_append, List.cons_append] at e
      injection e with e1 e2
      subst e1
      rw [clash] at h
      simp only [ne_eq, not_true_eq_false, decide_false, Bool.false_or] at h
      exact ih h e2

/-- The texts differ from each other. -/
def apart : List Str → Bool
  | [] => true
  | p :: ps => ps.all (clash p) && apart ps

theorem lead_unique {leads : List Str} (h : apart leads = true) {i j : Nat} {p q v v' : Str} (hi : leads[i]? = some p)
    (hj : leads[j]? = some q) (e : p ++ v = q ++ v') : i = j ∧ v = v' := by
  induction leads generalizing i j with
  | nil => cases hi
  | cons l ls ih =>
    rw [apart, Bool.and_eq_true, List.all_eq_true] at h
    match i, j, hi, hj with
    | 0, 0, hi, hj =>
      cases hi
      cases hj
      exact ⟨rfl, List.append_cancel_left e⟩
    | 0, j + 1, hi, hj =>
      cases hi
      exact (clash_ne (h.1 q (List.mem_of_getElem? hj)) v v' e).elim
    | i + 1, 0, hi, hj =>
      cases hj
      exact (clash_ne (h.1 p (List.mem_of_getElem? hi)) v' v e.symm).elim
    | i + 1, j + 1, hi, hj =>
      obtain ⟨h1, h2⟩ := ih h.2 hi hj
      exact ⟨by rw [h1], h2⟩

/-! ### Numbers -/

theorem dec_decimal (n : Nat) : ∀ c ∈ dec n, Decimal c := toDigits_all (by omega) digitChar_decimal n

theorem dec_inj {n m : Nat} (h : dec n = dec m) : n = m := by
  rw [← positional_toDigits (b := 10) (by omega) (by omega) n, ← positional_toDigits (b := 10) (by omega) (by omega) m]
  exact congrArg _ h

theorem dec_ne_nil (n : Nat) : dec n ≠ [] := (decimalFor_toDigits n).2.2.1

theorem dec_cons {n m : Nat} {x y : Char} {r r' : Str} (hx : ¬ Decimal x) (hy : ¬ Decimal y)
    (e : dec n ++ x :: r = dec m ++ y :: r') : n = m ∧ x = y ∧ r = r' := by
  obtain ⟨h1, h2⟩ := stretch_cons (dec_decimal n) (dec_decimal m) hx hy e
  exact ⟨dec_inj h1, h2⟩

/-- A capital hexadecimal digit. -/
def UpperHex (c : Char) : Prop := Decimal c ∨ ('A' ≤ c ∧ c ≤ 'F')

instance (c : Char) : Decidable (UpperHex c) := by unfold UpperHex; infer_instance

theorem upper_isUpperHex : ∀ d, d < 16 → UpperHex (Nat.digitChar d).toUpper := by decide +kernel

theorem upperDigit_value : ∀ d, d < 16 → digitVal (Nat.digitChar d).toUpper = d := by decide +kernel

theorem lowerDigit_value : ∀ d, d < 16 → digitVal (Nat.digitChar d) = d := by decide +kernel

theorem hexa_isUpperHex (n : Nat) : ∀ c ∈ hexa n, UpperHex c := by
  intro c hc
  obtain ⟨d, hd, rfl⟩ := List.mem_map.1 hc
  exact toDigits_all (p := fun c => UpperHex c.toUpper) (by omega) upper_isUpperHex n d hd

theorem positional_map {b : Nat} {f : Char → Char} {s : Str} (h : ∀ c ∈ s, digitVal (f c) = digitVal c) :
    positional b (s.map f) = positional b s := by
  unfold positional
  generalize 0 = acc
  induction s generalizing acc with
  | nil => rfl
  | cons c s ih =>
    rw [List.map_cons, List.foldl_cons, List.foldl_cons, h c List.mem_cons_self]
    exact ih (fun d hd => h d (List.mem_cons_of_mem _ hd)) _

theorem positional_hexa (n : Nat) : positional 16 (hexa n) = n := by
  unfold hexa
  rw [positional_map, positional_toDigits (by omega) (by omega)]
  exact toDigits_all (p := fun c => digitVal c.toUpper = digitVal c) (by omega)
    (fun d hd => by rw [upperDigit_value d hd, lowerDigit_value d hd]) n

theorem hexa_cons {n m : Nat} {x y : Char} {r r' : Str} (hx : ¬ UpperHex x) (hy : ¬ UpperHex y)
    (e : hexa n ++ x :: r = hexa m ++ y :: r') : n = m ∧ x = y ∧ r = r' := by
  obtain ⟨h1, h2⟩ := stretch_cons (hexa_isUpperHex n) (hexa_isUpperHex m) hx hy e
  exact ⟨by rw [← positional_hexa n, ← positional_hexa m, h1], h2⟩

/-! ### Names -/

/-- The characters of names, and the brackets. -/
def NameLike (c : Char) : Prop := NameChar c ∨ c = '[' ∨ c = ']'

instance (c : Char) : Decidable (NameLike c) := by unfold NameLike; infer_instance

theorem isName_like {s : Str} (h : IsName s) : ∀ c ∈ s, NameLike c := by
  rcases h with ⟨c, t, rfl, hc, ht⟩ | rfl | rfl
  · intro d hd
    rcases List.mem_cons.1 hd with rfl | hd
    · exact .inl (.inl hc)
    · exact .inl (ht d hd)
  · decide
  · decide

theorem name_cons {n m : Str} {x y : Char} {r r' : Str} (hn : IsName n) (hm : IsName m) (hx : ¬ NameLike x)
    (hy : ¬ NameLike y) (e : n ++ x :: r = m ++ y :: r') : n = m ∧ x = y ∧ r = r' :=
  stretch_cons (isName_like hn) (isName_like hm) hx hy e

/-! ### Locations -/

theorem shownLoc_split (l : Loc) (r : Str) : shownLoc l ++ ':' :: r = l.fileName ++ (':' :: (dec l.line ++ (':' :: (dec l.location ++
    (if l.length = 1 then ':' :: r else '-' :: (dec (l.location + l.length - 1) ++ ':' :: r)))))) := by
  unfold shownLoc
  by_cases h : l.length = 1
  · rw [if_pos h, if_pos h]
    simp [say]
  · rw [if_neg h, if_neg h]
    simp [say]

theorem shownLoc_unique {l l' : Loc} {r r' : Str} (hf : l.fileName = l'.fileName) (h : 1 ≤ l.location) (h' : 1 ≤ l'.location)
    (e : shownLoc l ++ ':' :: r = shownLoc l' ++ ':' :: r') : l = l' ∧ r = r' := by
  have hd : ¬ Decimal ':' := by decide
  have hm : ¬ Decimal '-' := by decide
  rw [shownLoc_split, shownLoc_split, hf] at e
  replace e := List.append_cancel_left e
  injection e with _ e
  obtain ⟨h1, _, e⟩ := dec_cons hd hd e
  obtain ⟨f, line, col, len⟩ := l
  obtain ⟨f', line', col', len'⟩ := l'
  simp only at hf h h' h1 e
  rw [hf, h1]
  by_cases hl : len = 1
  · by_cases hl' : len' = 1
    · rw [if_pos hl, if_pos hl'] at e
      obtain ⟨h2, _, e⟩ := dec_cons hd hd e
      rw [hl, hl', h2]
      exact ⟨rfl, e⟩
    · rw [if_pos hl, if_neg hl'] at e
      obtain ⟨_, e, _⟩ := dec_cons hd hm e
      exact absurd e (by decide)
  · by_cases hl' : len' = 1
    · rw [if_neg hl, if_pos hl'] at e
      obtain ⟨_, e, _⟩ := dec_cons hm hd e
      exact absurd e (by decide)
    · rw [if_neg hl, if_neg hl'] at e
      obtain ⟨h2, _, e⟩ := dec_cons hm hm e
      obtain ⟨h3, _, e⟩ := dec_cons hd hd e
      rw [h2, show len = len' by omega]
      exact ⟨rfl, e⟩

/-- The column of a token. -/
theorem token_column [Target] {file text : Str} {tokens : List Token} (h : scan file text = .ret tokens) :
    ∀ t ∈ tokens, 1 ≤ t.location.location := by
  intro t ht
  obtain ⟨pieces, tail, hP, hloc⟩ := C04_locations file text tokens h
  obtain ⟨i, hi, rfl⟩ := List.getElem_of_mem ht
  have hi' : i < pieces.length := by rw [hP.count]; exact hi
  rw [hloc i _ pieces[i] (List.getElem?_eq_getElem hi) (List.getElem?_eq_getElem hi')]
  exact Nat.le_add_right ..

/-! ### Expectations -/

theorem expected_comma {name : Str} {t : Token} (h : Expected name t) : ∀ c ∈ name, c ≠ ',' := by
  cases h <;> decide

theorem expected_digit {name : Str} {t : Token} (h : Expected name t) : ∀ c ∈ name, ¬ Decimal c := by
  cases h <;> decide +kernel

theorem expected_one {name : Str} {t : Token} (h : Expected name t) (v v' : Str) : "one of: ".toList ++ v ≠ name ++ v' := by
  cases h <;> exact clash_ne (by decide) _ _

theorem shownNames_cons (n m : Str) (r : List Str) : shownNames (n :: m :: r) = n ++ ',' :: ' ' :: shownNames (m :: r) := by
  rw [shownNames]
  simp [say]

theorem shownNames_unique {names names' : List Str} (h : ∀ n ∈ names, ∀ c ∈ n, c ≠ ',')
    (h' : ∀ n ∈ names', ∀ c ∈ n, c ≠ ',') (hne : names ≠ []) (hne' : names' ≠ []) (e : shownNames names = shownNames names') :
    names = names' := by
  have hc : ∀ {a b r : Str}, (∀ c ∈ a, c ≠ ',') → a ≠ b ++ ',' :: r := by
    rintro a b r ha rfl
    exact ha ',' (by simp) rfl
  induction names generalizing names' with
  | nil => exact (hne rfl).elim
  | cons n ns ih =>
    cases names' with
    | nil => exact (hne' rfl).elim
    | cons n' ns' =>
      cases ns with
      | nil =>
        cases ns' with
        | nil => rw [shownNames, shownNames] at e; rw [e]
        | cons m' r' =>
          rw [shownNames_cons, shownNames] at e
          exact (hc (h n List.mem_cons_self) e).elim
      | cons m r =>
        cases ns' with
        | nil =>
          rw [shownNames_cons, shownNames] at e
          exact (hc (h' n' List.mem_cons_self) e.symm).elim
        | cons m' r' =>
          rw [shownNames_cons, shownNames_cons] at e
          obtain ⟨h1, _, h2⟩ := stretch_cons (h n List.mem_cons_self) (h' n' List.mem_cons_self) (by simp) (by simp) e
          injection h2 with _ h2
          rw [h1, ih (fun x hx => h x (List.mem_cons_of_mem _ hx)) (fun x hx => h' x (List.mem_cons_of_mem _ hx)) (by simp) (by simp) h2]

theorem expecting_unique {names names' : List Str} (h : ∀ n ∈ names, ∃ t, Expected n t)
    (h' : ∀ n ∈ names', ∃ t, Expected n t) (hne : names ≠ []) (hne' : names' ≠ []) (e : expecting names = expecting names') :
    names = names' := by
  have hc : ∀ {ns : List Str}, (∀ n ∈ ns, ∃ t, Expected n t) → ∀ n ∈ ns, ∀ c ∈ n, c ≠ ',' := by
    intro ns h n hn
    obtain ⟨t, ht⟩ := h n hn
    exact expected_comma ht
  have hone : ∀ {ns : List Str} {v : Str}, ns.length = 1 → (∀ n ∈ ns, ∃ t, Expected n t) → shownNames ns ≠ "one of: ".toList ++ v := by
    intro ns v hl h e
    obtain ⟨n, rfl⟩ := List.length_eq_one_iff.1 hl
    obtain ⟨t, ht⟩ := h n List.mem_cons_self
    rw [shownNames] at e
    exact expected_one ht v [] (by rw [List.append_nil]; exact e.symm)
  have hs : ∀ v : Str, say ["one of: ".toList, v] = "one of: ".toList ++ v := by
    intro v
    simp [say]
  unfold expecting at e
  refine shownNames_unique (hc h) (hc h') hne hne' ?_
  by_cases hl : names.length = 1
  · by_cases hl' : names'.length = 1
    · rwa [if_pos hl, if_pos hl'] at e
    · rw [if_pos hl, if_neg hl', hs] at e
      exact (hone hl h e).elim
  · by_cases hl' : names'.length = 1
    · rw [if_neg hl, if_pos hl', hs] at e
      exact (hone hl' h' e.symm).elim
    · rw [if_neg hl, if_neg hl', hs, hs] at e
      exact List.append_cancel_left e

theorem expecting_digit {names : List Str} (h : ∀ n ∈ names, ∃ t, Expected n t) : ∀ c ∈ expecting names, ¬ Decimal c := by
  have hn : ∀ {ns : List Str}, (∀ n ∈ ns, ∃ t, Expected n t) → ∀ c ∈ shownNames ns, ¬ Decimal c := by
    intro ns h
    induction ns with
    | nil => intro c hc; cases hc
    | cons n ns ih =>
      obtain ⟨t, ht⟩ := h n List.mem_cons_self
      have ih := ih fun m hm => h m (List.mem_cons_of_mem _ hm)
      cases ns with
      | nil => exact expected_digit ht
      | cons m r =>
        rw [shownNames_cons]
        intro c hc
        rcases List.mem_append.1 hc with hc | hc
        · exact expected_digit ht c hc
        · rcases List.mem_cons.1 hc with rfl | hc
          · decide
          · rcases List.mem_cons.1 hc with rfl | hc
            · decide
            · exact ih c hc
  unfold expecting
  by_cases hl : names.length = 1
  · rw [if_pos hl]
    exact hn h
  · rw [if_neg hl]
    intro c hc
    rw [say_cons, say_cons, say_nil, List.append_nil] at hc
    rcases List.mem_append.1 hc with hc | hc
    · exact (by decide +kernel : ∀ c ∈ "one of: ".toList, ¬ Decimal c) c hc
    · exact hn h c hc

/-! ### Messages about statements -/

/-- What messages with a location begin with, after the location. -/
def leads : List Str :=
  ["Unrecognized directive '.".toList, "Incorrect number of parameters (".toList, "Directive .".toList,
   "All numeric parameters to .db must be 1-byte literals ($".toList, "Directive (.db [".toList,
   "A constant must be defined immediately following a label name.".toList, "Attempted re-definition of label '".toList,
   "Instruction would cause address counter to overflow $FFF.".toList, "Unable to resolve label ".toList,
   "Found 12-bit numeric value $".toList, "Found 8/12-bit numeric value $".toList, "No matching instruction: ".toList,
   "Unexpected token found: ".toList, "Encountered syntax error: ".toList]

theorem leads_apart : apart leads = true := by decide +kernel

/-- The rest of a message about a statement, by its beginning. -/
inductive Tail : SemanticError → Nat → Str → Prop where
  | unknown {l : Loc} {s : Str} : IsName s → Tail (.directiveInvalid l (.unrecognizedDirective s)) 0 (s ++ '\'' :: ".\n".toList)
  | count {l : Loc} {c : Str} {n : Nat} : c = "org".toList ∨ c = "equ".toList →
    Tail (.directiveInvalid l (.incorrectNumberOfParameters c n 1 false)) 1
      (dec n ++ ')' :: (" for directive .".toList ++ (c ++ ", expecting 1.\n".toList)))
  | none {l : Loc} : Tail (.directiveInvalid l (.incorrectNumberOfParameters "db".toList 0 1 true)) 1
      (dec 0 ++ ')' :: (" for directive .".toList ++ ("db".toList ++ ", expecting 1 or more.\n".toList)))
  | address {l : Loc} {c : Str} : c = "org".toList ∨ c = "equ".toList →
    Tail (.directiveInvalid l (.directiveRequiresOneNumericLiteral c)) 2
      (c ++ " requires 1 numeric literal in the range $000-$FFF.\n".toList)
  | byte {l : Loc} {n : Nat} : Tail (.directiveInvalid l (.allNumericParametersMustBeByteLiterals "db".toList n)) 3
      (hexa n ++ ' ' :: "> $FF).\n".toList)
  | tooLarge {l : Loc} {b : List U8} : Tail (.directiveTooLarge l (.db b)) 4
      (dec b.length ++ ' ' :: ("bytes]) size ".toList ++ (dec b.length ++ " exceeds 4096 bytes.\n".toList)))
  | overflow {l : Loc} {b : List U8} : Tail (.directiveWouldOverflow l (.db b)) 4
      (dec b.length ++ ' ' :: "bytes]) would cause the 12-bit address counter to overflow.\n".toList)
  | stray {l : Loc} : Tail (.constantWithoutLabel l) 5 "\n".toList
  | redefined {l : Loc} {s : Str} : IsName s → Tail (.redefinitionOfLabel l s) 6 (s ++ '\'' :: ".\n".toList)
  | instruction {l : Loc} : Tail (.instructionWouldOverflow l) 7 "\n".toList
  | unresolved {l : Loc} {s : Str} : IsName s → Tail (.assemblyFailed l (.unableToResolveLabel s)) 8 (s ++ '.' :: "\n".toList)
  | eightBit {l : Loc} {n : Nat} : Tail (.assemblyFailed l (.expectingEightBitValue n)) 9
      (hexa n ++ ',' :: " expecting 8-bit value.\n".toList)
  | fourBit {l : Loc} {n : Nat} : Tail (.assemblyFailed l (.expectingFourBitValue n)) 10
      (hexa n ++ ',' :: " expecting 4-bit value.\n".toList)
  | noOperands {l : Loc} {m : Str} : IsName m → Tail (.assemblyFailed l (.noMatchingFormat m .none)) 11 (m ++ '.' :: "\n".toList)
  | operands {l : Loc} {m s : Str} : IsName m → Tail (.assemblyFailed l (.noMatchingFormat m (some s))) 11
      (m ++ ' ' :: (s ++ ".\n".toList))

theorem tail_unique {e e' : SemanticError} {i : Nat} {v v' : Str} (h : Tail e i v) (h' : Tail e' i v')
    (hl : errorPlace e = errorPlace e') (hv : v = v') : told (.semantic e) = told (.semantic e') := by
  have hcan : ∀ {c c' r r' : Str}, c = "org".toList ∨ c = "equ".toList → c' = "org".toList ∨ c' = "equ".toList →
      c ++ r = c' ++ r' → c = c' := by
    rintro c c' r r' (rfl | rfl) (rfl | rfl) e
    · rfl
    · exact (clash_ne (by decide) _ _ e).elim
    · exact (clash_ne (by decide) _ _ e).elim
    · rfl
  cases h with
  | unknown hn =>
    cases h' with
    | unknown hn' =>
      cases hl
      obtain ⟨rfl, _⟩ := name_cons hn hn' (by decide) (by decide) hv
      rfl
  | count hc =>
    cases h' with
    | count hc' =>
      cases hl
      obtain ⟨rfl, _, e⟩ := dec_cons (by decide) (by decide) hv
      cases hcan hc hc' (List.append_cancel_left e)
      rfl
    | none =>
      obtain ⟨_, _, e⟩ := dec_cons (by decide) (by decide) hv
      have e := List.append_cancel_left e
      rcases hc with rfl | rfl <;> exact (clash_ne (by decide) _ _ e).elim
  | none =>
    cases h' with
    | count hc =>
      obtain ⟨_, _, e⟩ := dec_cons (by decide) (by decide) hv
      have e := List.append_cancel_left e
      rcases hc with rfl | rfl <;> exact (clash_ne (by decide) _ _ e).elim
    | none => cases hl; rfl
  | address hc =>
    cases h' with
    | address hc' =>
      cases hl
      cases hcan hc hc' hv
      rfl
  | byte =>
    cases h' with
    | byte =>
      cases hl
      obtain ⟨rfl, _⟩ := hexa_cons (by decide) (by decide) hv
      rfl
  | tooLarge =>
    cases h' with
    | tooLarge =>
      cases hl
      obtain ⟨e, _⟩ := dec_cons (by decide) (by decide) hv
      show Mistake.semantic (.directiveTooLarge _ (.db _)) = Mistake.semantic (.directiveTooLarge _ (.db _))
      unfold blot
      rw [e]
    | overflow =>
      obtain ⟨_, _, e⟩ := dec_cons (by decide) (by decide) hv
      rw [← List.append_nil "bytes]) would cause the 12-bit address counter to overflow.\n".toList] at e
      exact (clash_ne (by decide) _ _ e).elim
  | overflow =>
    cases h' with
    | tooLarge =>
      obtain ⟨_, _, e⟩ := dec_cons (by decide) (by decide) hv
      rw [← List.append_nil "bytes]) would cause the 12-bit address counter to overflow.\n".toList] at e
      exact (clash_ne (by decide) _ _ e).elim
    | overflow =>
      cases hl
      obtain ⟨e, _⟩ := dec_cons (by decide) (by decide) hv
      show Mistake.semantic (.directiveWouldOverflow _ (.db _)) = Mistake.semantic (.directiveWouldOverflow _ (.db _))
      unfold blot
      rw [e]
  | stray =>
    cases h' with
    | stray => cases hl; rfl
  | redefined hn =>
    cases h' with
    | redefined hn' =>
      cases hl
      obtain ⟨rfl, _⟩ := name_cons hn hn' (by decide) (by decide) hv
      rfl
  | instruction =>
    cases h' with
    | instruction => cases hl; rfl
  | unresolved hn =>
    cases h' with
    | unresolved hn' =>
      cases hl
      obtain ⟨rfl, _⟩ := name_cons hn hn' (by decide) (by decide) hv
      rfl
  | eightBit =>
    cases h' with
    | eightBit =>
      cases hl
      obtain ⟨rfl, _⟩ := hexa_cons (by decide) (by decide) hv
      rfl
  | fourBit =>
    cases h' with
    | fourBit =>
      cases hl
      obtain ⟨rfl, _⟩ := hexa_cons (by decide) (by decide) hv
      rfl
  | noOperands hn =>
    cases h' with
    | noOperands hn' =>
      cases hl
      obtain ⟨rfl, _⟩ := name_cons hn hn' (by decide) (by decide) hv
      rfl
    | operands hn' =>
      obtain ⟨_, e, _⟩ := name_cons hn hn' (by decide) (by decide) hv
      exact absurd e (by decide)
  | operands hn =>
    cases h' with
    | noOperands hn' =>
      obtain ⟨_, e, _⟩ := name_cons hn hn' (by decide) (by decide) hv
      exact absurd e (by decide)
    | operands hn' =>
      cases hl
      obtain ⟨rfl, _, e⟩ := name_cons hn hn' (by decide) (by decide) hv
      cases List.append_cancel_right e
      rfl

/-- How a message about a statement is made up. -/
theorem tail_exists {nodes : List Node} (hr : FourBitProgram nodes) (hf : ∀ n ∈ nodes, Formed n) {e : SemanticError}
    (h : assemble nodes = .ret (.error e)) : ∃ i p v, leads[i]? = some p ∧ Tail e i v ∧
      e.display ++ "\n".toList = shownLoc (errorPlace e) ++ ':' :: (" error: ".toList ++ (p ++ v)) := by
  have hd : ∀ {l : Loc} {a b : Str}, a ++ "\n".toList = b → l.display ++ ": error: ".toList ++ a ++ "\n".toList =
      shownLoc l ++ ':' :: (" error: ".toList ++ b) := by
    rintro l a b rfl
    rw [shownLoc_eq]
    simp only [List.append_assoc]
    rfl
  rcases (assemble_error_iff hr).1 h with ⟨pre, n, post, rfl, _, hfa⟩ |
    ⟨labels, pre, loc, m, fields, post, reason, _, _, rfl, _, hif, rfl⟩
  · have hn := hf n (by simp)
    cases hfa with
    | invalid hfail =>
      cases hfail with
      | count hc _ _ =>
        refine ⟨1, _, _, rfl, .count hc, hd ?_⟩
        rw [count_text]
        simp [say]
      | string hc _ =>
        refine ⟨2, _, _, rfl, .address hc, hd ?_⟩
        rw [address_text]
        simp [say]
      | range hc _ _ =>
        refine ⟨2, _, _, rfl, .address hc, hd ?_⟩
        rw [address_text]
        simp [say]
      | dbEmpty _ => exact ⟨1, _, _, rfl, .none, hd (by decide +kernel)⟩
      | dbByte _ _ _ =>
        refine ⟨3, _, _, rfl, .byte, hd ?_⟩
        rw [byte_text]
        simp [say]
      | unknown _ _ _ =>
        refine ⟨0, _, _, rfl, .unknown hn.1, hd ?_⟩
        rw [unknown_text]
        simp [say]
    | @tooLarge loc _ _ bytes _ _ =>
      refine ⟨4, _, _, rfl, .tooLarge, ?_⟩
      show loc.display ++ ": error: Directive (".toList ++ (".".toList ++ DirectiveNames.db ++ " [".toList ++ dec bytes.length ++
        " bytes]".toList) ++ ") size ".toList ++ dec bytes.length ++ " exceeds 4096 bytes.".toList ++ "\n".toList = _
      rw [shownLoc_eq]
      simp [DirectiveNames.db, errorPlace]
    | @overflow loc _ _ bytes _ _ _ _ =>
      refine ⟨4, _, _, rfl, .overflow, ?_⟩
      show loc.display ++ ": error: Directive (".toList ++ (".".toList ++ DirectiveNames.db ++ " [".toList ++ dec bytes.length ++
        " bytes]".toList) ++ ") would cause the 12-bit address counter to overflow.".toList ++ "\n".toList = _
      rw [shownLoc_eq]
      simp [DirectiveNames.db, errorPlace]
    | @stray loc _ _ _ _ =>
      refine ⟨5, _, _, rfl, .stray, ?_⟩
      show loc.display ++ ": error: ".toList ++ "A constant must be defined immediately following a label name".toList ++
        ".".toList ++ "\n".toList = _
      rw [shownLoc_eq]
      simp [errorPlace]
    | @redefined loc _ name _ =>
      refine ⟨6, _, _, rfl, .redefined hn, ?_⟩
      show loc.display ++ ": error: Attempted re-definition of label '".toList ++ name ++ "'.".toList ++ "\n".toList = _
      rw [shownLoc_eq]
      simp [errorPlace]
    | @instructionOverflow loc _ _ _ _ _ =>
      refine ⟨7, _, _, rfl, .instruction, ?_⟩
      show loc.display ++ ": error: ".toList ++ "Instruction would cause address counter to overflow $FFF".toList ++
        ".".toList ++ "\n".toList = _
      rw [shownLoc_eq]
      simp [errorPlace]
  · have hn := hf (.instruction loc m fields) (by simp)
    cases hif with
    | unresolved _ hi _ =>
      refine ⟨8, _, _, rfl, .unresolved (hn.2 _ hi).1, hd ?_⟩
      rw [unresolved_text]
      simp [say]
    | eightBit _ _ _ _ _ =>
      refine ⟨9, _, _, rfl, .eightBit, hd ?_⟩
      rw [eightBit_text]
      simp [say]
    | fourBit _ _ _ _ _ =>
      refine ⟨10, _, _, rfl, .fourBit, hd ?_⟩
      rw [fourBit_text]
      simp [say]
    | noMatch _ =>
      by_cases he : fields = []
      · refine ⟨11, "No matching instruction: ".toList, m ++ '.' :: "\n".toList, rfl, ?_, hd ?_⟩
        · rw [if_pos he]
          exact .noOperands hn.1
        · rw [noMatch_text, if_pos he]
          simp [say]
      · refine ⟨11, "No matching instruction: ".toList, m ++ ' ' :: (shownOperands fields ++ ".\n".toList), rfl, ?_, hd ?_⟩
        · rw [if_neg he]
          exact .operands hn.1
        · rw [noMatch_text, if_neg he]
          simp [say]

/-! ### Messages about tokens -/

/-- What the descriptions of tokens begin with. -/
def tokenLeads : List Str :=
  ["single-line comment".toList, "directive marker".toList, "label marker".toList, "comma".toList, "newline".toList,
   "identifier (".toList, "string literal (\"".toList, "numeric literal (".toList]

theorem tokenLeads_apart : apart tokenLeads = true := by decide +kernel

/-- The rest of the description of a token, by its beginning. -/
inductive TokenTail : Token → Nat → Str → Prop where
  | comment {s : Str} {l : Loc} : TokenTail (.singleLineComment s l) 0 []
  | directiveMarker {l : Loc} : TokenTail (.directiveMarker l) 1 []
  | labelMarker {l : Loc} : TokenTail (.labelMarker l) 2 []
  | comma {l : Loc} : TokenTail (.comma l) 3 []
  | newline {l : Loc} : TokenTail (.newline l) 4 []
  | identifier {s : Str} {l : Loc} : IsName s → TokenTail (.identifier s l) 5 (s ++ ")".toList)
  | string {s : Str} {l : Loc} : StringBody s → TokenTail (.stringLiteral s l) 6 (s ++ "\")".toList)
  | number {n : Nat} {l : Loc} : TokenTail (.numericLiteral n l) 7 (dec n ++ (" / $".toList ++ (hexa n ++ ")".toList)))

theorem tokenTail_exists {t : Token} (hne : ∀ e l, t ≠ .error e l) (hi : ∀ s l, t = .identifier s l → IsName s)
    (hs : ∀ s l, t = .stringLiteral s l → StringBody s) :
    ∃ i p v, tokenLeads[i]? = some p ∧ TokenTail t i v ∧ t.display = p ++ v := by
  cases t with
  | singleLineComment s l => exact ⟨0, _, _, rfl, .comment, rfl⟩
  | directiveMarker l => exact ⟨1, _, _, rfl, .directiveMarker, rfl⟩
  | labelMarker l => exact ⟨2, _, _, rfl, .labelMarker, rfl⟩
  | comma l => exact ⟨3, _, _, rfl, .comma, rfl⟩
  | newline l => exact ⟨4, _, _, rfl, .newline, rfl⟩
  | identifier s l => exact ⟨5, _, _, rfl, .identifier (hi s l rfl), by
      show "identifier (".toList ++ s ++ ")".toList = _
      rw [List.append_assoc]⟩
  | stringLiteral s l => exact ⟨6, _, _, rfl, .string (hs s l rfl), by
      show "string literal (\"".toList ++ s ++ "\")".toList = _
      rw [List.append_assoc]⟩
  | numericLiteral n l => exact ⟨7, _, _, rfl, .number, by
      show "numeric literal (".toList ++ dec n ++ " / $".toList ++ hexa n ++ ")".toList = _
      simp only [List.append_assoc]⟩
  | error e l => exact (hne e l rfl).elim

theorem tokenTail_unique {t t' : Token} {i : Nat} {v v' r r' : Str} (h : TokenTail t i v) (h' : TokenTail t' i v')
    (hl : t.location = t'.location) (hv : v ++ r = v' ++ r') : toldToken t = toldToken t' ∧ r = r' := by
  cases h with
  | comment =>
    cases h' with
    | comment => cases hl; exact ⟨rfl, hv⟩
  | directiveMarker =>
    cases h' with
    | directiveMarker => cases hl; exact ⟨rfl, hv⟩
  | labelMarker =>
    cases h' with
    | labelMarker => cases hl; exact ⟨rfl, hv⟩
  | comma =>
    cases h' with
    | comma => cases hl; exact ⟨rfl, hv⟩
  | newline =>
    cases h' with
    | newline => cases hl; exact ⟨rfl, hv⟩
  | identifier hn =>
    cases h' with
    | identifier hn' =>
      cases hl
      rw [List.append_assoc, List.append_assoc] at hv
      obtain ⟨rfl, _, e⟩ := name_cons (x := ')') (y := ')') hn hn' (by decide) (by decide) hv
      exact ⟨rfl, e⟩
  | string hb =>
    cases h' with
    | string hb' =>
      cases hl
      rw [List.append_assoc, List.append_assoc] at hv
      cases stringBody_unique (r := ')' :: r) (r' := ')' :: r') hb hb' hv
      exact ⟨rfl, List.append_cancel_left (List.append_cancel_left hv)⟩
  | number =>
    cases h' with
    | number =>
      cases hl
      simp only [List.append_assoc] at hv
      obtain ⟨rfl, _, e⟩ := dec_cons (x := ' ') (y := ' ') (r := "/ $".toList ++ _) (r' := "/ $".toList ++ _) (by decide) (by decide) hv
      exact ⟨rfl, List.append_cancel_left (List.append_cancel_left (List.append_cancel_left e))⟩

/-- What the descriptions of errors of the scanner begin with. -/
def reasonLeads : List Str :=
  ["Invalid quoted string literal.".toList, "Invalid hexadecimal literal starting with ($).".toList, "Decimal literal ".toList,
   "Invalid decimal literal encountered.".toList, "Invalid binary literal encountered.".toList,
   "Binary literal not in range 0...4095.".toList, "Invalid identifier encountered.".toList,
   "Expected Index Register Indirect ([i]) not found.".toList, "Invalid character '".toList]

theorem reasonLeads_apart : apart reasonLeads = true := by decide +kernel

inductive ReasonTail : ScanError → Nat → Str → Prop where
  | string : ReasonTail .invalidStringLiteral 0 []
  | hexadecimal : ReasonTail .invalidHexadecimalLiteral 1 []
  | decimalRange {s : Str} : (∀ d ∈ s, Decimal d) → ReasonTail (.decimalLiteralOutOfRange s) 2 (s ++ " not in range (0...4095).".toList)
  | decimal : ReasonTail .invalidDecimalLiteral 3 []
  | binary : ReasonTail .invalidBinaryLiteral 4 []
  | binaryRange {s : Str} : ReasonTail (.binaryLiteralOutOfRange s) 5 []
  | identifier : ReasonTail .invalidIdentifier 6 []
  | indirect : ReasonTail .expectedRegisterIndirect 7 []
  | character {c : Char} : ReasonTail (.invalidCharacter c) 8 (c :: "'.".toList)

theorem reasonTail_exists {e : ScanError} (h : ∀ s, e = .decimalLiteralOutOfRange s → ∀ d ∈ s, Decimal d) :
    ∃ i p v, reasonLeads[i]? = some p ∧ ReasonTail e i v ∧ e.display = p ++ v := by
  cases e with
  | invalidStringLiteral => exact ⟨0, _, _, rfl, .string, by
      show (ScanError.invalidStringLiteral).description ++ ".".toList = _
      decide +kernel⟩
  | invalidHexadecimalLiteral => exact ⟨1, _, _, rfl, .hexadecimal, by
      show (ScanError.invalidHexadecimalLiteral).description ++ ".".toList = _
      decide +kernel⟩
  | decimalLiteralOutOfRange s => exact ⟨2, _, _, rfl, .decimalRange (h s rfl), by
      show "Decimal literal ".toList ++ s ++ " not in range (0...4095).".toList = _
      rw [List.append_assoc]⟩
  | invalidDecimalLiteral => exact ⟨3, _, _, rfl, .decimal, by
      show (ScanError.invalidDecimalLiteral).description ++ ".".toList = _
      decide +kernel⟩
  | invalidBinaryLiteral => exact ⟨4, _, _, rfl, .binary, by
      show (ScanError.invalidBinaryLiteral).description ++ ".".toList = _
      decide +kernel⟩
  | binaryLiteralOutOfRange s => exact ⟨5, _, _, rfl, .binaryRange, by
      show (ScanError.binaryLiteralOutOfRange []).description ++ ".".toList = _
      decide +kernel⟩
  | invalidIdentifier => exact ⟨6, _, _, rfl, .identifier, by
      show (ScanError.invalidIdentifier).description ++ ".".toList = _
      decide +kernel⟩
  | expectedRegisterIndirect => exact ⟨7, _, _, rfl, .indirect, by
      show (ScanError.expectedRegisterIndirect).description ++ ".".toList = _
      decide +kernel⟩
  | invalidCharacter c => exact ⟨8, _, _, rfl, .character, by
      show "Invalid character '".toList ++ [c] ++ "'.".toList = _
      rw [List.append_assoc]
      rfl⟩

theorem reasonTail_unique {e e' : ScanError} {i : Nat} {v v' r r' : Str} (l : Loc) (h : ReasonTail e i v) (h' : ReasonTail e' i v')
    (hv : v ++ r = v' ++ r') : toldToken (.error e l) = toldToken (.error e' l) ∧ r = r' := by
  cases h with
  | string => cases h' with
    | string => exact ⟨rfl, hv⟩
  | hexadecimal => cases h' with
    | hexadecimal => exact ⟨rfl, hv⟩
  | decimalRange hd => cases h' with
    | decimalRange hd' =>
      rw [List.append_assoc, List.append_assoc] at hv
      obtain ⟨rfl, _, e⟩ := stretch_cons (x := ' ') (y := ' ') (r := "not in range (0...4095).".toList ++ _)
        (r' := "not in range (0...4095).".toList ++ _) hd hd' (by decide) (by decide) hv
      exact ⟨rfl, List.append_cancel_left e⟩
  | decimal => cases h' with
    | decimal => exact ⟨rfl, hv⟩
  | binary => cases h' with
    | binary => exact ⟨rfl, hv⟩
  | binaryRange => cases h' with
    | binaryRange => exact ⟨rfl, hv⟩
  | identifier => cases h' with
    | identifier => exact ⟨rfl, hv⟩
  | indirect => cases h' with
    | indirect => exact ⟨rfl, hv⟩
  | character => cases h' with
    | character =>
      rw [List.cons_append, List.cons_append] at hv
      injection hv with h1 h2
      subst h1
      exact ⟨rfl, List.append_cancel_left h2⟩

/-! ### Messages with a location -/

/-- What a message with a location says of that location. -/
inductive Body : Mistake → Loc → Nat → Str → Prop where
  | semantic {e : SemanticError} {i : Nat} {v : Str} : Tail e i v → Body (.semantic e) (errorPlace e) i v
  | token {names : List Str} {t : Token} {j : Nat} {q w : Str} : (∀ n ∈ names, ∃ t, Expected n t) → names ≠ [] →
    tokenLeads[j]? = some q → TokenTail t j w →
    Body (.syntactic (.unexpectedToken names t)) t.location 12
      (q ++ (w ++ (", expecting ".toList ++ (expecting names ++ ".\n".toList))))
  | lexical {names : List Str} {e : ScanError} {l : Loc} {j : Nat} {q w : Str} : (∀ n ∈ names, ∃ t, Expected n t) → names ≠ [] →
    reasonLeads[j]? = some q → ReasonTail e j w →
    Body (.syntactic (.unexpectedToken names (.error e l))) l 13
      (q ++ (w ++ ("\n".toList ++ (shownLoc l ++ (": error: Expecting ".toList ++ (expecting names ++ ".\n".toList))))))

theorem body_unique {f f' : Mistake} {l l' : Loc} {i : Nat} {v v' : Str} (h : Body f l i v) (h' : Body f' l' i v')
    (hl : l = l') (hv : v = v') : told f = told f' := by
  cases h with
  | semantic ht =>
    cases h' with
    | semantic ht' => exact tail_unique ht ht' hl hv
    | token => cases ht
    | lexical => cases ht
  | @token names t j q w hx hne hj ht =>
    cases h' with
    | semantic ht' => cases ht'
    | token hx' hne' hj' ht' =>
      obtain ⟨rfl, e⟩ := lead_unique tokenLeads_apart hj hj' hv
      obtain ⟨h1, e⟩ := tokenTail_unique ht ht' hl e
      have h2 := expecting_unique hx hx' hne hne' (List.append_cancel_right (List.append_cancel_left e))
      show Mistake.syntactic (.unexpectedToken _ _) = Mistake.syntactic (.unexpectedToken _ _)
      rw [h1, h2]
  | @lexical names er l j q w hx hne hj ht =>
    cases h' with
    | semantic ht' => cases ht'
    | lexical hx' hne' hj' ht' =>
      subst hl
      obtain ⟨rfl, e⟩ := lead_unique reasonLeads_apart hj hj' hv
      obtain ⟨h1, e⟩ := reasonTail_unique l ht ht' e
      have h2 := expecting_unique hx hx' hne hne' (List.append_cancel_right
        (List.append_cancel_left (List.append_cancel_left (List.append_cancel_left e))))
      show Mistake.syntactic (.unexpectedToken _ _) = Mistake.syntactic (.unexpectedToken _ _)
      rw [h1, h2]

/-- The two forms of messages. -/
inductive Message (input : Str) : Mistake → Str → Prop where
  | located {f : Mistake} {l : Loc} {i : Nat} {p v : Str} : l.fileName = input → 1 ≤ l.location → leads[i]? = some p →
    Body f l i v → Message input f (shownLoc l ++ ':' :: (" error: ".toList ++ (p ++ v)))
  | endOfFile {names : List Str} : (∀ n ∈ names, ∃ t, Expected n t) → names ≠ [] →
    Message input (.syntactic (.unexpectedEndOfFile names))
      ("error: Unexpected end-of-file reached, expecting ".toList ++ (expecting names ++ ".\n".toList))

theorem message_unique {input : Str} {f f' : Mistake} {m m' : Str} (h : Message input f m) (h' : Message input f' m')
    (e : m = m') : told f = told f' := by
  have hno : ∀ {names : List Str} {l : Loc} {r : Str}, (∀ n ∈ names, ∃ t, Expected n t) →
      "error: Unexpected end-of-file reached, expecting ".toList ++ (expecting names ++ ".\n".toList) ≠ shownLoc l ++ ':' :: r := by
    intro names l r hx e
    obtain ⟨c, hc⟩ := List.exists_mem_of_ne_nil _ (dec_ne_nil l.line)
    have hm : c ∈ "error: Unexpected end-of-file reached, expecting ".toList ++ (expecting names ++ ".\n".toList) := by
      rw [e, shownLoc_split]
      exact List.mem_append_right _ (List.mem_cons_of_mem _ (List.mem_append_left _ hc))
    have hd := dec_decimal _ c hc
    rcases List.mem_append.1 hm with hm | hm
    · exact (by decide +kernel : ∀ c ∈ "error: Unexpected end-of-file reached, expecting ".toList, ¬ Decimal c) c hm hd
    · rcases List.mem_append.1 hm with hm | hm
      · exact expecting_digit hx c hm hd
      · exact (by decide +kernel : ∀ c ∈ ".\n".toList, ¬ Decimal c) c hm hd
  cases h with
  | located hf hc hi hb =>
    cases h' with
    | located hf' hc' hi' hb' =>
      obtain ⟨hl, e⟩ := shownLoc_unique (hf.trans hf'.symm) hc hc' e
      obtain ⟨rfl, e⟩ := lead_unique leads_apart hi hi' (List.append_cancel_left e)
      exact body_unique hb hb' hl e
    | endOfFile hx _ => exact (hno hx e.symm).elim
  | endOfFile hx hne =>
    cases h' with
    | located hf' hc' hi' hb' => exact (hno hx e).elim
    | endOfFile hx' hne' =>
      rw [expecting_unique hx hx' hne hne' (List.append_cancel_right (List.append_cancel_left e))]

/-- What is printed for a mistake other than an overlap. -/
theorem mistake_message [Target] (env : Env) (program input output text : Str) {f : Mistake} (h : HasMistake input text f)
    (ho : ∀ pairs, f ≠ .overlap pairs) :
    ∃ m, Message input f m ∧ assembleText env program input output text = ⟨[.printed m], .code 1⟩ := by
  cases h with
  | @syntactic tokens e hs he =>
    have hd : ∀ {message : Str}, e.display = .ret message → assembleText env program input output text =
        ⟨[.printed (message ++ "\n".toList)], .code 1⟩ := by
      intro message hm
      unfold assembleText
      simp only [hs, he, hm]
    have hx := C54_expected tokens e he
    cases e with
    | unexpectedEndOfFile names =>
      obtain ⟨h1, h2, h3⟩ := C15_end tokens names he
      obtain ⟨m, hm, e⟩ := eof_display h3
      refine ⟨_, .endOfFile (fun name hn => (hx name hn).1) h3, ?_⟩
      rw [hd hm, e]
      simp only [say_cons, say_nil, List.append_nil]
    | unexpectedToken names t =>
      obtain ⟨pre, post, rfl, h1, h2, h3⟩ := hx
      obtain ⟨_, _, _, _, _, hne⟩ := C15_token _ names t he
      have hexp : ∀ n ∈ names, ∃ t, Expected n t := fun name hn => (h3 name hn).1
      have hmem : t ∈ pre ++ t :: post := by simp
      have hfile := token_file hs t hmem
      have hcol := token_column hs t hmem
      have hlex := (scan_iff_lex _ _ _).1 hs
      by_cases ht : ∃ e l, t = .error e l
      · obtain ⟨e, l, rfl⟩ := ht
        obtain ⟨m, hm, em⟩ := lexical_display hne e l
        obtain ⟨j, q, w, hj, hw, hsplit⟩ := reasonTail_exists (e := e) (by
          rintro s rfl
          exact lex_digits_mem hlex hmem)
        refine ⟨_, .located (i := 13) hfile hcol rfl (.lexical hexp hne hj hw), ?_⟩
        rw [hd hm, em, hsplit]
        simp [say, Token.location]
      · obtain ⟨shown, hsh⟩ := shownToken_exists (t := t) (fun e l h => ht ⟨e, l, h⟩)
        obtain ⟨m, hm, em⟩ := token_display hne hsh
        obtain ⟨j, q, w, hj, hw, hsplit⟩ := tokenTail_exists (t := t) (fun e l h => ht ⟨e, l, h⟩)
          (lexed_tokens hlex t hmem).1 (lexed_tokens hlex t hmem).2.1
        refine ⟨_, .located (i := 12) hfile hcol rfl (.token hexp hne hj hw), ?_⟩
        rw [hd hm, em, ← shownToken_display hsh, hsplit]
        simp [say]
  | @semantic tokens nodes e hs hp ha =>
    have hprog := (parse_ok_iff _ _).1 hp
    have hr := program_registers hprog
    obtain ⟨i, p, v, hi, ht, hd⟩ := tail_exists hr (program_formed hprog (lexed_tokens ((scan_iff_lex _ _ _).1 hs))) ha
    obtain ⟨n, hn, hloc⟩ := error_place hr ha
    obtain ⟨name, hm⟩ := program_location hprog n hn
    refine ⟨_, .located (i := i) (l := errorPlace e) (by rw [hloc]; exact token_file hs _ hm)
      (by rw [hloc]; exact token_column hs _ hm) hi (.semantic ht), ?_⟩
    unfold assembleText
    simp only [hs, hp, ha, hd]
  | overlap => exact (ho _ rfl).elim

/-! ### Messages about ranges -/

theorem upperDigit_inj : ∀ a, a < 16 → ∀ b, b < 16 → upperDigit a = upperDigit b → a = b := by decide +kernel

theorem upperTriple_inj {a b : Nat} (ha : a < 4096) (hb : b < 4096) (h : upperTriple a = upperTriple b) : a = b := by
  unfold upperTriple at h
  injection h with h1 h
  injection h with h2 h
  injection h with h3 _
  have h1 := upperDigit_inj _ (by omega) _ (by omega) h1
  have h2 := upperDigit_inj _ (by omega) _ (by omega) h2
  have h3 := upperDigit_inj _ (by omega) _ (by omega) h3
  omega

theorem shownRange_split (r : DataRange) : shownRange r = '$' :: (upperTriple r.startAddress.toNat ++ ("...$".toList ++
    (upperTriple (r.startAddress.toNat + r.data.length - 1) ++ (" (".toList ++ (dec r.data.length ++ ' ' :: "bytes)".toList))))) := by
  unfold shownRange
  simp [dec]

theorem shownRange_unique {r r' : DataRange} (e : shownRange r = shownRange r') : toldRange r = toldRange r' := by
  rw [shownRange_split, shownRange_split] at e
  injection e with _ e
  obtain ⟨h1, e⟩ := List.append_inj e rfl
  have h1 := upperTriple_inj r.startAddress.isLt r'.startAddress.isLt h1
  obtain ⟨_, e⟩ := List.append_inj (List.append_cancel_left e) rfl
  obtain ⟨h2, _⟩ := dec_cons (by decide) (by decide) (List.append_cancel_left e)
  unfold toldRange blot
  rw [h2, BitVec.eq_of_toNat_eq h1]

theorem shownRange_told (r : DataRange) : shownRange (toldRange r) = shownRange r := by
  unfold shownRange toldRange blot
  simp only [List.length_replicate]

/-- What is printed of overlapping ranges. -/
def overlapEvents (program : Str) (pairs : List (DataRange × DataRange)) : List Event :=
  pairs.flatMap fun p => [report program ("  range ".toList ++ shownRange p.1 ++ " overlaps with:".toList),
    report program ("  range ".toList ++ shownRange p.2)]

theorem report_inj {program m m' : Str} (h : report program m = report program m') : m = m' := by
  injection h with h
  exact List.append_cancel_right (List.append_cancel_left (List.append_cancel_left h))

theorem overlapEvents_unique {program : Str} {pairs pairs' : List (DataRange × DataRange)}
    (h : overlapEvents program pairs = overlapEvents program pairs') :
    pairs.map (fun p => (toldRange p.1, toldRange p.2)) = pairs'.map (fun p => (toldRange p.1, toldRange p.2)) := by
  induction pairs generalizing pairs' with
  | nil =>
    cases pairs' with
    | nil => rfl
    | cons p' rest' => cases h
  | cons p rest ih =>
    cases pairs' with
    | nil => cases h
    | cons p' rest' =>
      unfold overlapEvents at h
      rw [List.flatMap_cons, List.flatMap_cons, List.cons_append, List.cons_append, List.cons_append, List.cons_append] at h
      injection h with h1 h
      injection h with h2 h
      rw [List.map_cons, List.map_cons, ih h, shownRange_unique (List.append_cancel_left (report_inj h2)),
        shownRange_unique (List.append_cancel_left (List.append_cancel_right (report_inj h1)))]

theorem overlapEvents_told (program : Str) (pairs : List (DataRange × DataRange)) :
    overlapEvents program (pairs.map fun p => (toldRange p.1, toldRange p.2)) = overlapEvents program pairs := by
  unfold overlapEvents
  rw [List.flatMap_map]
  simp only [shownRange_told]

/-- What is printed for an overlap. -/
theorem overlap_message [Target] (env : Env) (program input output text : Str) {pairs : List (DataRange × DataRange)}
    (h : HasMistake input text (.overlap pairs)) : pairs ≠ [] ∧ assembleText env program input output text =
      ⟨[report program "Input file specifies overlapping data ranges.".toList,
        report program "Data from one section has overflowed into the adjacent.".toList] ++ overlapEvents program pairs, .code 1⟩ := by
  cases h with
  | @overlap tokens nodes ranges hs hp ha hne =>
    refine ⟨hne, ?_⟩
    have hb := ranges_bound ha
    have hr : overlapReports program (findOverlappingRanges ranges) = .ret (overlapEvents program (findOverlappingRanges ranges)) := by
      refine overlapReports_eq ?_
      rintro ⟨a, b⟩ hq
      obtain ⟨i, j, _, hi, hj, _⟩ := (C40_mem ranges a b).1 hq
      have h1 := hb a (List.mem_of_getElem? hi)
      have h2 := hb b (List.mem_of_getElem? hj)
      exact ⟨display_shown h1.1 h1.2, display_shown h2.1 h2.2⟩
    unfold assembleText
    simp only [hs, hp, ha]
    rw [if_pos (List.length_pos_iff.2 hne), hr]
    simp [report, logProgramError]

/-! ### What is told decides what is printed -/

theorem parse_display_told {e e' : ParseError} (h : told (.syntactic e) = told (.syntactic e')) : e.display = e'.display := by
  have key : ∀ names t, (ParseError.unexpectedToken names (toldToken t)).display = (ParseError.unexpectedToken names t).display := by
    intro names t
    cases t with
    | singleLineComment s l => cases names with
      | nil => rfl
      | cons n ns => cases ns <;> rfl
    | error e l => cases e with
      | binaryLiteralOutOfRange s => cases names with
        | nil => rfl
        | cons n ns => cases ns <;> rfl
      | _ => rfl
    | _ => rfl
  cases e with
  | unexpectedEndOfFile names =>
    cases e' with
    | unexpectedEndOfFile names' => cases h; rfl
    | unexpectedToken names' t' => cases h
  | unexpectedToken names t =>
    cases e' with
    | unexpectedEndOfFile names' => cases h
    | unexpectedToken names' t' =>
      have h : Mistake.syntactic (.unexpectedToken names (toldToken t)) = Mistake.syntactic (.unexpectedToken names' (toldToken t')) := h
      injection h with h
      injection h with h1 h2
      rw [← key names t, ← key names' t', h1, h2]

theorem directive_display_told (d : Directive) : (toldDirective d).display = d.display ∧ (toldDirective d).size = d.size := by
  cases d with
  | db b =>
    have : (blot b).length = b.length := List.length_replicate
    constructor
    · show ".".toList ++ DirectiveNames.db ++ " [".toList ++ showDec (blot b).length ++ _ = _
      rw [this]
      rfl
    · exact this
  | org a => exact ⟨rfl, rfl⟩
  | equ a => exact ⟨rfl, rfl⟩

theorem semantic_display_told {e e' : SemanticError} (h : told (.semantic e) = told (.semantic e')) : e.display = e'.display := by
  have key : ∀ e : SemanticError, ∃ e', told (.semantic e) = .semantic e' ∧ e'.display = e.display := by
    intro e
    cases e with
    | directiveTooLarge l d =>
      refine ⟨_, rfl, ?_⟩
      show l.display ++ _ ++ (toldDirective d).display ++ _ ++ showDec (toldDirective d).size ++ _ = _
      rw [(directive_display_told d).1, (directive_display_told d).2]
      rfl
    | directiveWouldOverflow l d =>
      refine ⟨_, rfl, ?_⟩
      show l.display ++ _ ++ (toldDirective d).display ++ _ = _
      rw [(directive_display_told d).1]
      rfl
    | _ => exact ⟨_, rfl, rfl⟩
  obtain ⟨a, ha, h1⟩ := key e
  obtain ⟨b, hb, h2⟩ := key e'
  rw [ha, hb] at h
  injection h with h
  rw [← h1, ← h2, h]

/-! ### Operands -/

def operandLeads : List Str :=
  ["literal:$".toList, "register:".toList, "register-indirect:[index]".toList, "identifier:".toList, "bcd".toList, "sprite".toList]

theorem operandLeads_apart : apart operandLeads = true := by decide +kernel

def registerWords : List Str := ["delay-timer".toList, "sound-timer".toList, "keypad".toList, "index".toList]

/-- How an operand is shown, by its beginning. -/
inductive OperandTail : Field → Nat → Str → Prop where
  | literal {v : U12} : OperandTail (.numericLiteral v) 0 (Nat.toDigits 16 v.toNat)
  | register {r : U8} : r.toNat < 16 → OperandTail (.generalPurposeRegister r) 1 [Nat.digitChar r.toNat]
  | delay : OperandTail .delayTimer 1 "delay-timer".toList
  | sound : OperandTail .soundTimer 1 "sound-timer".toList
  | keypad : OperandTail .keypadRegister 1 "keypad".toList
  | index : OperandTail .indexRegister 1 "index".toList
  | indirect : OperandTail .indexRegisterIndirect 2 []
  | identifier {s : Str} : IsName s → OperandTail (.identifier s) 3 s
  | bcd : OperandTail .bcd 4 []
  | sprite : OperandTail .sprite 5 []

theorem operandTail_exists {f : Field} (h : OperandFormed f) :
    ∃ i p v, operandLeads[i]? = some p ∧ OperandTail f i v ∧ shownOperand f = p ++ v := by
  have two : ∀ a b : Str, say [a, b] = a ++ b := by
    intro a b
    simp [say]
  cases f with
  | numericLiteral v => exact ⟨0, _, _, rfl, .literal, two _ _⟩
  | generalPurposeRegister r =>
    have hr : r.toNat < 16 := Nat.lt_succ_of_le h
    refine ⟨1, "register:".toList, [Nat.digitChar r.toNat], rfl, .register hr, ?_⟩
    exact (two _ _).trans (by rw [Nat.toDigits_of_lt_base hr])
  | delayTimer => exact ⟨1, _, _, rfl, .delay, by decide +kernel⟩
  | soundTimer => exact ⟨1, _, _, rfl, .sound, by decide +kernel⟩
  | keypadRegister => exact ⟨1, _, _, rfl, .keypad, by decide +kernel⟩
  | indexRegister => exact ⟨1, _, _, rfl, .index, by decide +kernel⟩
  | indexRegisterIndirect => exact ⟨2, _, _, rfl, .indirect, by decide +kernel⟩
  | identifier s => exact ⟨3, _, _, rfl, .identifier h.1, two _ _⟩
  | bcd => exact ⟨4, _, _, rfl, .bcd, by decide +kernel⟩
  | sprite => exact ⟨5, _, _, rfl, .sprite, by decide +kernel⟩

theorem operand_unique {f f' : Field} (h : OperandFormed f) (h' : OperandFormed f') (e : shownOperand f = shownOperand f') :
    f = f' := by
  obtain ⟨i, p, v, hi, ht, hd⟩ := operandTail_exists h
  obtain ⟨i', p', v', hi', ht', hd'⟩ := operandTail_exists h'
  rw [hd, hd'] at e
  obtain ⟨rfl, rfl⟩ := lead_unique operandLeads_apart hi hi' e
  have hw : ∀ {c : Char} {w : Str}, w ∈ registerWords → [c] ≠ w := by
    rintro c w hw rfl
    have := (by decide +kernel : ∀ w ∈ registerWords, w.length ≠ 1) _ hw
    exact this rfl
  have inj : ∀ {a b : Nat}, a < 16 → b < 16 → Nat.digitChar a = Nat.digitChar b → a = b := by
    intro a b ha hb
    exact (by decide +kernel : ∀ a, a < 16 → ∀ b, b < 16 → Nat.digitChar a = Nat.digitChar b → a = b) a ha b hb
  generalize hv : v = v' at ht'
  generalize hj : i = j at ht'
  cases ht with
  | literal =>
    cases ht' with
    | literal =>
      have e := congrArg (positional 16) hv
      rw [positional_toDigits (by omega) (by omega), positional_toDigits (by omega) (by omega)] at e
      rw [BitVec.eq_of_toNat_eq e]
    | _ => cases hj
  | register hr =>
    cases ht' with
    | register hr' =>
      injection hv with e _
      rw [BitVec.eq_of_toNat_eq (inj hr hr' e)]
    | delay => exact (hw (by decide) hv).elim
    | sound => exact (hw (by decide) hv).elim
    | keypad => exact (hw (by decide) hv).elim
    | index => exact (hw (by decide) hv).elim
    | _ => cases hj
  | delay =>
    cases ht' with
    | register hr' => exact (hw (by decide) hv.symm).elim
    | delay => rfl
    | sound => exact absurd hv (by decide)
    | keypad => exact absurd hv (by decide)
    | index => exact absurd hv (by decide)
    | _ => cases hj
  | sound =>
    cases ht' with
    | register hr' => exact (hw (by decide) hv.symm).elim
    | delay => exact absurd hv (by decide)
    | sound => rfl
    | keypad => exact absurd hv (by decide)
    | index => exact absurd hv (by decide)
    | _ => cases hj
  | keypad =>
    cases ht' with
    | register hr' => exact (hw (by decide) hv.symm).elim
    | delay => exact absurd hv (by decide)
    | sound => exact absurd hv (by decide)
    | keypad => rfl
    | index => exact absurd hv (by decide)
    | _ => cases hj
  | index =>
    cases ht' with
    | register hr' => exact (hw (by decide) hv.symm).elim
    | delay => exact absurd hv (by decide)
    | sound => exact absurd hv (by decide)
    | keypad => exact absurd hv (by decide)
    | index => rfl
    | _ => cases hj
  | indirect =>
    cases ht' with
    | indirect => rfl
    | _ => cases hj
  | identifier hn =>
    cases ht' with
    | identifier hn' => rw [hv]
    | _ => cases hj
  | bcd =>
    cases ht' with
    | bcd => rfl
    | _ => cases hj
  | sprite =>
    cases ht' with
    | sprite => rfl
    | _ => cases hj

theorem operand_comma {f : Field} (h : OperandFormed f) : ∀ c ∈ shownOperand f, c ≠ ',' := by
  obtain ⟨i, p, v, hi, ht, hd⟩ := operandTail_exists h
  rw [hd]
  intro c hc
  rcases List.mem_append.1 hc with hc | hc
  · exact (by decide +kernel : ∀ p ∈ operandLeads, ∀ c ∈ p, c ≠ ',') p (List.mem_of_getElem? hi) c hc
  · cases ht with
    | literal => exact toDigits_all (p := fun c => c ≠ ',') (by omega) (by decide +kernel) _ c hc
    | register hr =>
      cases List.mem_singleton.1 hc
      exact (by decide +kernel : ∀ d, d < 16 → Nat.digitChar d ≠ ',') _ hr
    | identifier hn =>
      have := isName_like hn c hc
      rintro rfl
      exact absurd this (by decide)
    | delay => exact (by decide : ∀ c ∈ "delay-timer".toList, c ≠ ',') c hc
    | sound => exact (by decide : ∀ c ∈ "sound-timer".toList, c ≠ ',') c hc
    | keypad => exact (by decide : ∀ c ∈ "keypad".toList, c ≠ ',') c hc
    | index => exact (by decide : ∀ c ∈ "index".toList, c ≠ ',') c hc
    | _ => cases hc

theorem operand_ne_nil {f : Field} (h : OperandFormed f) : shownOperand f ≠ [] := by
  obtain ⟨i, p, v, hi, ht, hd⟩ := operandTail_exists h
  rw [hd]
  intro e
  exact (by decide +kernel : ∀ p ∈ operandLeads, p ≠ []) p (List.mem_of_getElem? hi) (List.append_eq_nil_iff.1 e).1

theorem shownOperands_names (fs : List Field) : shownOperands fs = shownNames (fs.map shownOperand) := by
  induction fs with
  | nil => rfl
  | cons f fs ih =>
    cases fs with
    | nil => rfl
    | cons g gs =>
      rw [shownOperands, ih]
      rfl

theorem operands_unique {fs fs' : List Field} (h : ∀ f ∈ fs, OperandFormed f) (h' : ∀ f ∈ fs', OperandFormed f)
    (e : shownOperands fs = shownOperands fs') : fs = fs' := by
  have hz : ∀ {gs : List Field}, (∀ f ∈ gs, OperandFormed f) → shownOperands gs = [] → gs = [] := by
    intro gs hg e
    cases gs with
    | nil => rfl
    | cons f gs =>
      cases gs with
      | nil => exact (operand_ne_nil (hg f List.mem_cons_self) e).elim
      | cons g gs =>
        rw [shownOperands_names, List.map_cons, List.map_cons, shownNames_cons] at e
        exact absurd e (by simp)
  by_cases h1 : fs = []
  · subst h1
    exact (hz h' e.symm).symm
  · by_cases h2 : fs' = []
    · subst h2
      exact hz h e
    · rw [shownOperands_names, shownOperands_names] at e
      have hc : ∀ {gs : List Field}, (∀ f ∈ gs, OperandFormed f) → ∀ n ∈ gs.map shownOperand, ∀ c ∈ n, c ≠ ',' := by
        intro gs hg n hn
        obtain ⟨f, hf, rfl⟩ := List.mem_map.1 hn
        exact operand_comma (hg f hf)
      have e := shownNames_unique (hc h) (hc h') (by simpa using h1) (by simpa using h2) e
      clear h1 h2
      induction fs generalizing fs' with
      | nil =>
        cases fs' with
        | nil => rfl
        | cons g gs => cases e
      | cons f fs ih =>
        cases fs' with
        | nil => cases e
        | cons g gs =>
          rw [List.map_cons, List.map_cons] at e
          injection e with e1 e2
          rw [operand_unique (h f List.mem_cons_self) (h' g List.mem_cons_self) e1,
            ih (fun x hx => h x (List.mem_cons_of_mem _ hx)) (fun x hx => h' x (List.mem_cons_of_mem _ hx)) (by rw [e2]) e2]

end C8S
