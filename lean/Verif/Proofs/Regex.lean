import Verif.Spec.Regex
import Verif.Model.Scanner

/- The matchers of the scanner model agree with the patterns in the code. -/

namespace C8S

open Spec.Regex

namespace RegexProof

/-- The part of the text a bounded repetition may cover. -/
def cap (high : Option Nat) (s : Str) : Str :=
  match high with
  | none => s
  | some h => s.take h

theorem head_append {α : Type} (a b : List α) : (a ++ b).head? = a.head?.or b.head? := by
  cases a <;> rfl

theorem repeated_one (p : Char → Bool) (s : Str) : ∀ (fuel low : Nat) (high : Option Nat) (b : Bool), s.length < fuel →
    ((repeated (one p) fuel low high (b, s)).head?).map Prod.snd =
      if low ≤ ((cap high s).takeWhile p).length then some (s.drop ((cap high s).takeWhile p).length) else none := by
  induction s with
  | nil =>
    intro fuel low high b hf
    have e : (cap high ([] : Str)).takeWhile p = [] := by cases high <;> simp [cap]
    rw [e]
    cases fuel with
    | zero => exact absurd hf (Nat.not_lt_zero _)
    | succ fuel =>
      cases low with
      | zero => simp [repeated, one]
      | succ low => simp [repeated, one]
  | cons c s ih =>
    intro fuel low high b hf
    cases fuel with
    | zero => exact absurd hf (Nat.not_lt_zero _)
    | succ fuel =>
      have hf : s.length < fuel := Nat.lt_of_succ_lt_succ hf
      by_cases h0 : high = some 0
      · subst h0
        cases low with
        | zero => simp [repeated, cap]
        | succ low => simp [repeated, cap]
      · have ec : cap high (c :: s) = c :: cap (high.map (· - 1)) s := by
          cases high with
          | none => rfl
          | some h =>
            cases h with
            | zero => exact absurd rfl h0
            | succ h => rfl
        rw [repeated, if_neg h0, ec]
        by_cases hp : p c = true
        · have e1 : one p (b, c :: s) = [(false, s)] := by simp [one, hp]
          rw [e1, List.flatMap_cons, List.flatMap_nil, List.append_nil, head_append]
          have ih := ih fuel (low - 1) (high.map (· - 1)) false hf
          rw [List.takeWhile_cons_of_pos hp, List.length_cons, List.drop_succ_cons]
          by_cases hl : low ≤ ((cap (high.map (· - 1)) s).takeWhile p).length + 1
          · rw [if_pos (by omega)] at ih
            rw [if_pos hl, ← ih]
            cases hh : (repeated (one p) fuel (low - 1) (high.map (· - 1)) (false, s)).head? with
            | none => rw [hh] at ih; cases ih
            | some q => rfl
          · rw [if_neg (by omega)] at ih
            rw [if_neg hl]
            cases hh : (repeated (one p) fuel (low - 1) (high.map (· - 1)) (false, s)).head? with
            | none => rw [if_neg (by omega)]; rfl
            | some q => rw [hh] at ih; cases ih
        · have e1 : one p (b, c :: s) = [] := by simp [one, hp]
          rw [e1, List.takeWhile_cons_of_neg hp]
          cases low with
          | zero => simp
          | succ low => simp

/-- An anchored pattern matches only at the start. -/
theorem findFrom_anchored (r : Re) (offset : Nat) (s : Str) : findFrom (.seq .start r) false offset s = none := by
  induction s generalizing offset with
  | nil => simp [findFrom, Re.ends]
  | cons c s ih => simp [findFrom, Re.ends, ih]

theorem matchLength_anchored {p : Str} {r : Re} (hp : pattern p = some (.seq .start r)) (s : Str) :
    matchLength p s = ((r.ends (true, s)).head?.map Prod.snd).map fun rest => byteLen s - byteLen rest := by
  have key : find (.seq .start r) s =
      ((r.ends (true, s)).head?.map Prod.snd).map fun rest => (0, byteLen s - byteLen rest) := by
    have e : Re.ends (.seq .start r) (true, s) = r.ends (true, s) := by simp [Re.ends]
    unfold find
    cases s with
    | nil =>
      rw [findFrom, e]
      cases r.ends (true, []) with
      | nil => rfl
      | cons q l => simp [size, byteLen]
    | cons c s =>
      rw [findFrom, e]
      cases r.ends (true, c :: s) with
      | nil => exact findFrom_anchored r _ s
      | cons q l => simp [size, byteLen]
  unfold matchLength
  rw [hp]
  show (match find (.seq .start r) s with | some (0, n) => some n | _ => none) = _
  rw [key]
  cases (r.ends (true, s)).head? <;> rfl

theorem byteLen_cons (c : Char) (s : Str) : byteLen (c :: s) = c.utf8Size + byteLen s := by
  simp [byteLen]

theorem byteLen_append (s t : Str) : byteLen (s ++ t) = byteLen s + byteLen t := by
  simp [byteLen]

theorem byteLen_drop (s : Str) (n : Nat) : byteLen s - byteLen (s.drop n) = byteLen (s.take n) := by
  have := byteLen_append (s.take n) (s.drop n)
  rw [List.take_append_drop] at this
  omega

theorem take_takeWhile (p : Char → Bool) (s : Str) : s.take (s.takeWhile p).length = s.takeWhile p := by
  induction s with
  | nil => rfl
  | cons c s ih =>
    by_cases h : p c = true
    · simp [List.takeWhile_cons_of_pos h, ih]
    · simp [List.takeWhile_cons_of_neg h]

theorem take_takeWhile_cap (p : Char → Bool) (s : Str) (n : Nat) :
    s.take ((s.take n).takeWhile p).length = (s.take n).takeWhile p := by
  have h1 := take_takeWhile p (s.take n)
  have h2 : ((s.take n).takeWhile p).length ≤ n := by
    have := (List.takeWhile_prefix p (l := s.take n)).length_le
    have := List.length_take_le n s
    omega
  rw [List.take_take, Nat.min_eq_left h2] at h1
  exact h1

theorem one_congr {p q : Char → Bool} (h : ∀ c, p c = q c) : one p = one q := by
  rw [show p = q from funext h]

/-- A greedy run of at least one character. -/
theorem run_ends (p : Char → Bool) (b : Bool) (s : Str) :
    (((repeated (one p) (s.length + 1) 1 none (b, s)).head?).map Prod.snd).map (fun rest => byteLen s - byteLen rest) =
      matchRun p s := by
  rw [repeated_one p s _ _ _ _ (Nat.lt_succ_self _)]
  unfold matchRun cap
  simp only
  cases hs : s.takeWhile p with
  | nil => rfl
  | cons c t =>
    rw [if_pos (by simp), Option.map_some, byteLen_drop, ← hs, take_takeWhile, hs]

theorem char_ge (c d : Char) : decide (c.toNat ≤ d.toNat) = decide (c ≤ d) := by
  rw [decide_eq_decide]
  exact Iff.rfl

theorem char_single (c d : Char) : (decide (c.toNat ≤ d.toNat) && decide (d.toNat ≤ c.toNat)) = (d == c) := by
  rw [Bool.eq_iff_iff]
  simp only [Bool.and_eq_true, decide_eq_true_eq, beq_iff_eq]
  constructor
  · rintro ⟨h1, h2⟩
    exact Char.toNat_inj.1 (Nat.le_antisymm h2 h1)
  · rintro rfl
    exact ⟨Nat.le_refl _, Nat.le_refl _⟩

theorem isBlank_eq (c : Char) :
    (([Item.notSpace, .range '\n' '\n'].any (Item.has c)) != true) = isBlank c := by
  simp only [List.any_cons, List.any_nil, Item.has, char_single, Bool.or_false, isBlank]
  have : (whiteSpace.any fun (lo, hi) => lo ≤ c.toNat && c.toNat ≤ hi) = isWhite c := by
    unfold isWhite whiteSpace
    simp only [List.any_cons, List.any_nil, Bool.or_false]
    rw [Bool.eq_iff_iff]
    simp only [Bool.or_eq_true, Bool.and_eq_true, decide_eq_true_eq, beq_iff_eq]
    omega
  rw [this]
  cases isWhite c <;> cases hc : c == '\n' <;> simp [bne, hc]

theorem isDec_eq (c : Char) : (([Item.range '0' '9'].any (Item.has c)) != false) = isDec c := by
  simp only [List.any_cons, List.any_nil, Item.has, Bool.or_false, isDec, Bool.bne_false, char_ge]

theorem isHex_eq (c : Char) :
    (([Item.range '0' '9', .range 'a' 'f', .range 'A' 'F'].any (Item.has c)) != false) = isHex c := by
  simp only [List.any_cons, List.any_nil, Item.has, Bool.or_false, isHex, isDec, Bool.bne_false, char_ge, Bool.or_assoc]

theorem isBin_eq (c : Char) :
    (([Item.range '0' '0', .range '1' '1', .range '.' '.'].any (Item.has c)) != false) = isBin c := by
  simp only [List.any_cons, List.any_nil, Item.has, char_single, Bool.or_false, isBin, Bool.bne_false, Bool.or_assoc]

theorem isIdentStart_eq (c : Char) :
    (([Item.range '_' '_', .range 'a' 'z', .range 'A' 'Z'].any (Item.has c)) != false) = isIdentStart c := by
  simp only [List.any_cons, List.any_nil, Item.has, char_single, Bool.or_false, isIdentStart, Bool.bne_false, Bool.or_assoc]
  simp only [char_ge]

theorem isIdentChar_eq (c : Char) :
    (([Item.range '_' '_', .range 'a' 'z', .range 'A' 'Z', .range '0' '9'].any (Item.has c)) != false) =
      isIdentChar c := by
  simp only [List.any_cons, List.any_nil, Item.has, char_single, Bool.or_false, isIdentChar, isIdentStart, isDec,
    Bool.bne_false, Bool.or_assoc]
  simp only [char_ge]

/-- One character or escape of a string body. -/
def bodyStep : Place → List Place :=
  Re.ends (.alt (.cls true [.range '"' '"', .range '\\' '\\']) (.seq (.cls false [.range '\\' '\\']) .dot))

/-- The closing quote. -/
def quote : Place → List Place := Re.ends (.cls false [.range '"' '"'])

theorem quote_nil (b : Bool) : quote (b, []) = [] := rfl

theorem quote_cons (b : Bool) (c : Char) (r : Str) : quote (b, c :: r) = if c = '"' then [(false, r)] else [] := by
  simp only [quote, Re.ends, one, List.any_cons, List.any_nil, Item.has, char_single, Bool.or_false, Bool.bne_false,
    beq_iff_eq]

theorem bodyStep_eq (b : Bool) (s : Str) : bodyStep (b, s) = match s with
    | [] => []
    | c :: r =>
      if c = '"' then []
      else if c = '\\' then
        match r with
        | [] => []
        | d :: r' => if d = '\n' then [] else [(false, r')]
      else [(false, r)] := by
  unfold bodyStep
  cases s with
  | nil => rfl
  | cons c r =>
    simp only [Re.ends, one, List.any_cons, List.any_nil, Item.has, char_single, Bool.or_false, Bool.bne_false]
    by_cases h : c = '"'
    · subst h
      rfl
    · by_cases h' : c = '\\'
      · subst h'
        cases r with
        | nil => rfl
        | cons d r' =>
          by_cases hd : d = '\n'
          · subst hd; rfl
          · simp [hd]
      · simp [h, h']

/-- The first way to end a string body and its closing quote leaves `rest`, if there is one. -/
def Ends (l : List Place) (s : Str) (tail : Option Nat) : Prop :=
  (l = [] ∧ tail = none) ∨ ∃ b rest more n, l = (b, rest) :: more ∧ tail = some n ∧ byteLen s = n + byteLen rest

theorem body_ends (k : Nat) : ∀ (s : Str) (fuel : Nat) (b : Bool), s.length ≤ k → s.length < fuel →
    Ends ((repeated bodyStep fuel 0 none (b, s)).flatMap quote) s (reStringTail s) := by
  induction k with
  | zero =>
    intro s fuel b hk hf
    cases s with
    | nil =>
      cases fuel with
      | zero => exact absurd hf (Nat.not_lt_zero _)
      | succ fuel => exact .inl ⟨by simp [repeated, bodyStep_eq, quote_nil], rfl⟩
    | cons c s => simp at hk
  | succ k ih =>
    intro s fuel b hk hf
    cases fuel with
    | zero => exact absurd hf (Nat.not_lt_zero _)
    | succ fuel =>
      cases s with
      | nil => exact .inl ⟨by simp [repeated, bodyStep_eq, quote_nil], rfl⟩
      | cons c r =>
        simp only [List.length_cons] at hk hf
        rw [repeated, bodyStep_eq, if_neg (by simp), if_pos rfl, List.flatMap_append, List.flatMap_cons,
          List.flatMap_nil, List.append_nil, quote_cons, reStringTail.eq_def]
        simp only
        by_cases h : c = '"'
        · subst h
          exact .inr ⟨false, r, [], 1, rfl, rfl, by rw [byteLen_cons]; rfl⟩
        · rw [if_neg h, if_neg h, if_neg h, List.append_nil]
          by_cases h' : c = '\\'
          · subst h'
            rw [if_pos rfl, if_pos rfl]
            cases r with
            | nil => exact .inl ⟨rfl, rfl⟩
            | cons d r' =>
              simp only [List.length_cons] at hk hf
              by_cases hd : d = '\n'
              · subst hd
                exact .inl ⟨rfl, rfl⟩
              · simp only [if_neg hd, List.flatMap_cons, List.flatMap_nil, List.append_nil, Option.map_none]
                rcases ih r' fuel false (by omega) (by omega) with ⟨h1, h2⟩ | ⟨b', rest, more, n, h1, h2, h3⟩
                · exact .inl ⟨h1, by rw [h2]; rfl⟩
                · refine .inr ⟨b', rest, more, n + (1 + d.utf8Size), h1, by rw [h2]; rfl, ?_⟩
                  rw [byteLen_cons, byteLen_cons, h3]
                  have : Char.utf8Size '\\' = 1 := by decide
                  omega
          · rw [if_neg h', if_neg h']
            simp only [List.flatMap_cons, List.flatMap_nil, List.append_nil, Option.map_none]
            rcases ih r fuel false (by omega) (by omega) with ⟨h1, h2⟩ | ⟨b', rest, more, n, h1, h2, h3⟩
            · exact .inl ⟨h1, by rw [h2]; rfl⟩
            · refine .inr ⟨b', rest, more, n + c.utf8Size, h1, by rw [h2]; rfl, ?_⟩
              rw [byteLen_cons, h3]
              omega

end RegexProof

end C8S
