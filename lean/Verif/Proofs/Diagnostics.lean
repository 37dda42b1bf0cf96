import Verif.Spec.Diagnostics
import Verif.Proofs.Numerals
import Verif.Proofs.Lines
import Verif.Proofs.Pieces

/- Printed locations. -/

namespace C8S

open Spec

theorem toDigits_head {b : Nat} (hb : 1 < b) (hb' : b ≤ 16) (n : Nat) :
    Nat.toDigits b n = ['0'] ∨ (Nat.toDigits b n).head? ≠ some '0' := by
  induction n using Nat.strongRecOn with
  | ind n ih =>
    by_cases h : n < b
    · rw [Nat.toDigits_of_lt_base h]
      by_cases h0 : n = 0
      · subst h0; exact .inl rfl
      · right
        have : ∀ d, d < 16 → d ≠ 0 → Nat.digitChar d ≠ '0' := by decide
        simpa using this n (by omega) h0
    · right
      rw [Nat.toDigits_of_base_le hb (by omega)]
      rcases ih _ (Nat.div_lt_self (by omega) hb) with h' | h'
      · have := positional_toDigits hb hb' (n / b)
        rw [h'] at this
        have h2 : 0 < n / b := Nat.div_pos (by omega) (by omega)
        have h3 : positional b ['0'] = 0 := by
          simp only [positional, List.foldl_cons, List.foldl_nil]
          have : digitVal '0' = 0 := by decide
          omega
        omega
      · rw [List.head?_append]
        cases hd : (Nat.toDigits b (n / b)).head? with
        | none => exact absurd (List.head?_eq_none_iff.1 hd) Nat.toDigits_ne_nil
        | some c => rw [hd] at h'; simpa using h'

theorem decimalFor_toDigits (n : Nat) : DecimalFor (Nat.toDigits 10 n) n :=
  ⟨toDigits_all (by omega) digitChar_decimal n, positional_toDigits (by omega) (by omega) n, Nat.toDigits_ne_nil,
    toDigits_head (by omega) (by omega) n⟩

theorem display_locates (l : Loc) (hl : 1 ≤ l.length) :
    LocationText l.fileName l.line l.location (l.location + l.length - 1) l.display := by
  unfold Loc.display
  by_cases h : l.length = 1
  · rw [if_pos h]
    have := LocationText.single (file := l.fileName) (last := l.location + l.length - 1) (by omega)
      (decimalFor_toDigits l.line) (decimalFor_toDigits l.location)
    simpa [showDec] using this
  · rw [if_neg h]
    have := LocationText.span (file := l.fileName) (first := l.location) (last := l.location + l.length - 1) (by omega)
      (decimalFor_toDigits l.line) (decimalFor_toDigits l.location) (decimalFor_toDigits (l.location + l.length - 1))
    simpa [showDec] using this

theorem take_firstLine (s : Str) : ∀ c ∈ s.take (firstLine s - 1), c ≠ '\n' := by
  induction s with
  | nil => simp
  | cons c s ih =>
    unfold firstLine
    by_cases h : c = '\n'
    · simp [h]
    · rw [if_neg h]
      intro d hd
      cases hf : firstLine s with
      | zero => simp [hf] at hd
      | succ k =>
        rw [hf] at hd ih
        simp only [Nat.add_sub_cancel, List.take_succ_cons, List.mem_cons] at hd
        rcases hd with rfl | hd
        · exact h
        · exact ih d hd

theorem firstLine_le (s : Str) : firstLine s ≤ s.length := by
  induction s with
  | nil => simp [firstLine]
  | cons c s ih =>
    unfold firstLine
    split <;> simp <;> omega

theorem columnAfter_append (before s : Str) (hs : s ≠ []) :
    columnAfter (before ++ s.take (firstLine s - 1)) = columnAfter before + firstLine s - 1 := by
  have h := take_firstLine s
  have hn : '\n' ∉ s.take (firstLine s - 1) := fun hm => h _ hm rfl
  have hlen : (s.take (firstLine s - 1)).length = firstLine s - 1 := by
    have := firstLine_le s
    rw [List.length_take]; omega
  have hpos := firstLine_pos hs
  unfold columnAfter
  rw [sinceNewline_append, if_neg hn, hlen]
  omega

theorem locates_of (file before s : Str) (hs : s ≠ []) : LocatesText file before s (locate file before s).display := by
  have := display_locates (locate file before s) (firstLine_pos hs)
  unfold LocatesText
  rw [columnAfter_append _ _ hs]
  exact this

/-! Reading printed locations. -/

theorem split_at {p : Char → Prop} {a b r s : Str} {x y : Char} (ha : ∀ c ∈ a, p c) (hb : ∀ c ∈ b, p c) (hx : ¬ p x)
    (hy : ¬ p y) (h : a ++ x :: r = b ++ y :: s) : a = b ∧ x = y ∧ r = s := by
  induction a generalizing b with
  | nil =>
    cases b with
    | nil => simpa using h
    | cons c b =>
      simp at h
      exact (hx (h.1 ▸ hb c List.mem_cons_self)).elim
  | cons c a ih =>
    cases b with
    | nil =>
      simp at h
      exact (hy (h.1 ▸ ha c List.mem_cons_self)).elim
    | cons d b =>
      simp only [List.cons_append, List.cons.injEq] at h
      obtain ⟨rfl, h⟩ := h
      obtain ⟨rfl, h2, h3⟩ := ih (fun c hc => ha c (List.mem_cons_of_mem _ hc)) (fun c hc => hb c (List.mem_cons_of_mem _ hc)) h
      exact ⟨rfl, h2, h3⟩

theorem not_decimal_at {a b r : Str} {y : Char} (ha : ∀ c ∈ a, Decimal c) (hy : ¬ Decimal y) : a ≠ b ++ y :: r := by
  rintro rfl
  exact hy (ha y (by simp))

/-- The location can be read off its printed form. -/
theorem locationText_unique {file : Str} {l f e l' f' e' : Nat} {s : Str} (h : LocationText file l f e s)
    (h' : LocationText file l' f' e' s) : l = l' ∧ f = f' ∧ e = e' := by
  have hc : ¬ Decimal ':' := by decide
  have hm : ¬ Decimal '-' := by decide
  cases h with
  | @single a b he ha hb =>
    generalize hs : file ++ ':' :: a ++ ':' :: b = s at h'
    cases h' with
    | @single a' b' he' ha' hb' =>
      simp only [List.append_assoc, List.cons_append, List.append_cancel_left_eq, List.cons.injEq, true_and] at hs
      obtain ⟨rfl, _, rfl⟩ := split_at ha.1 ha'.1 hc hc hs
      exact ⟨ha.2.1.symm.trans ha'.2.1, hb.2.1.symm.trans hb'.2.1, by rw [← he, ← he', ← hb.2.1, ← hb'.2.1]⟩
    | @span a' b' d' he' ha' hb' hd' =>
      simp only [List.append_assoc, List.cons_append, List.append_cancel_left_eq, List.cons.injEq, true_and] at hs
      obtain ⟨rfl, _, h⟩ := split_at ha.1 ha'.1 hc hc hs
      exact (not_decimal_at hb.1 hm h).elim
  | @span a b d he ha hb hd =>
    generalize hs : file ++ ':' :: a ++ ':' :: b ++ '-' :: d = s at h'
    cases h' with
    | @single a' b' he' ha' hb' =>
      simp only [List.append_assoc, List.cons_append, List.append_cancel_left_eq, List.cons.injEq, true_and] at hs
      obtain ⟨rfl, _, h⟩ := split_at ha.1 ha'.1 hc hc hs
      exact (not_decimal_at hb'.1 hm h.symm).elim
    | @span a' b' d' he' ha' hb' hd' =>
      simp only [List.append_assoc, List.cons_append, List.append_cancel_left_eq, List.cons.injEq, true_and] at hs
      obtain ⟨rfl, _, hs⟩ := split_at ha.1 ha'.1 hc hc hs
      obtain ⟨rfl, _, rfl⟩ := split_at hb.1 hb'.1 hm hm hs
      exact ⟨ha.2.1.symm.trans ha'.2.1, hb.2.1.symm.trans hb'.2.1, hd.2.1.symm.trans hd'.2.1⟩

end C8S
