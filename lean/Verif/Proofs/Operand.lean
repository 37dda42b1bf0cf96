import Verif.Spec.Operand
import Verif.Proofs.Case

/- Lemmas on the classification of identifier operands. -/

namespace C8S

open Spec Parser

theorem toDigit_hex (c : Char) (n : Nat) : toDigit 16 c = some n ↔ HexDigit c n := by
  have e : ∀ a b : Char, a ≤ b ↔ a.toNat ≤ b.toNat := char_le_iff
  simp only [toDigit, HexDigit, e]
  have h0 : '0'.toNat = 48 := rfl
  have h1 : '9'.toNat = 57 := rfl
  have h2 : 'a'.toNat = 97 := rfl
  have h3 : 'z'.toNat = 122 := rfl
  have h4 : 'A'.toNat = 65 := rfl
  have h5 : 'Z'.toNat = 90 := rfl
  rw [h0, h1, h2, h3, h4, h5]
  by_cases c1 : 48 ≤ c.toNat ∧ c.toNat ≤ 57
  · rw [if_pos c1]
    simp only []
    rw [if_pos (by omega)]
    simp only [Option.some.injEq]
    omega
  · rw [if_neg c1]
    by_cases c2 : 97 ≤ c.toNat ∧ c.toNat ≤ 122
    · rw [if_pos c2]
      simp only []
      split
      · simp only [Option.some.injEq]; omega
      · simp only [reduceCtorEq, false_iff]; omega
    · rw [if_neg c2]
      by_cases c3 : 65 ≤ c.toNat ∧ c.toNat ≤ 90
      · rw [if_pos c3]
        simp only []
        split
        · simp only [Option.some.injEq]; omega
        · simp only [reduceCtorEq, false_iff]; omega
      · rw [if_neg c3]
        simp only [reduceCtorEq, false_iff]
        omega

theorem hexDigit_lt {c : Char} {n : Nat} (h : HexDigit c n) : n < 16 := by
  simp only [HexDigit] at h
  omega

/-- `u8::from_str_radix` on one character. -/
theorem fromStrRadix_one (c : Char) : fromStrRadix 8 16 [c] = toDigit 16 c := by
  unfold fromStrRadix
  split
  · rename_i h; cases h
  · rename_i h; injection h with h; subst h; decide
  · rename_i h; injection h with h1 h2; subst h1; subst h2; simp_all
  · simp only [radixDigits]
    cases h : toDigit 16 c with
    | none => rfl
    | some d =>
      have := hexDigit_lt ((toDigit_hex c d).1 h)
      simp
      omega

/-- The classification of two-character names starting with a `v`. -/
theorem fieldOfIdentifier_v {v c : Char} (hv : v = 'v' ∨ v = 'V') :
    fieldOfIdentifier [v, c] =
      match toDigit 16 c with
      | some n => .ret (.generalPurposeRegister (BitVec.ofNat 8 n))
      | none => .ret (.identifier [v, c]) := by
  have hs : sliceFrom [v, c] 'v'.utf8Size = .ret [c] := by
    rcases hv with rfl | rfl <;> rfl
  have hne : ∀ (x y : Char), x ≠ 'v' → x ≠ 'V' → [v, c] ≠ [x, y] := by
    intro x y h1 h2 h; injection h with h; subst h
    rcases hv with h | h
    · exact h1 h
    · exact h2 h
  unfold fieldOfIdentifier
  rw [if_neg, if_neg, if_neg, if_neg, if_neg, if_neg, if_neg, if_pos]
  · simp only [hs, Run.ret_bind, fromStrRadix_one]
    cases toDigit 16 c <;> rfl
  · refine ⟨rfl, ?_⟩
    rcases hv with rfl | rfl
    · left; simp [List.isPrefixOf]
    · right; simp [List.isPrefixOf]
  all_goals first
    | (intro h; simp at h; done)
    | (rintro (h | h) <;> exact hne _ _ (by decide) (by decide) h)

theorem specialNames_ret {name : Str} {f : Field} (h : (name, f) ∈ specialNames) :
    fieldOfIdentifier name = .ret f := by
  have : ∀ p ∈ specialNames, fieldOfIdentifier p.1 = .ret p.2 := by decide
  exact this _ h

theorem registerNamed_ret {name : Str} {f : Field} (h : RegisterNamed name f) :
    fieldOfIdentifier name = .ret f := by
  cases h with
  | special h => exact specialNames_ret h
  | @general v c r hv hd =>
    rw [fieldOfIdentifier_v hv, (toDigit_hex _ _).2 hd]
    simp

theorem fieldOfIdentifier_ret (name : Str) :
    ∃ f, fieldOfIdentifier name = .ret f ∧ (RegisterNamed name f ∨ f = .identifier name) := by
  by_cases hs : ∃ f, (name, f) ∈ specialNames
  · obtain ⟨f, h⟩ := hs
    exact ⟨f, specialNames_ret h, .inl (.special h)⟩
  · have hno : ∀ s f, (s, f) ∈ specialNames → name ≠ s := by
      rintro s f h rfl; exact hs ⟨f, h⟩
    by_cases hv : ∃ v c, name = [v, c] ∧ (v = 'v' ∨ v = 'V')
    · obtain ⟨v, c, rfl, hv⟩ := hv
      rw [fieldOfIdentifier_v hv]
      cases h : toDigit 16 c with
      | none => exact ⟨_, rfl, .inr rfl⟩
      | some n =>
        have hd := (toDigit_hex _ _).1 h
        have hlt := hexDigit_lt hd
        refine ⟨_, rfl, .inl (.general hv ?_)⟩
        rw [BitVec.toNat_ofNat, Nat.mod_eq_of_lt (by omega)]
        exact hd
    · refine ⟨.identifier name, ?_, .inr rfl⟩
      unfold fieldOfIdentifier
      rw [if_neg, if_neg, if_neg, if_neg, if_neg, if_neg, if_neg, if_neg]
      · rintro ⟨hl, hp⟩
        obtain ⟨v, c, rfl⟩ : ∃ v c, name = [v, c] := by
          match name, hl with
          | [v, c], _ => exact ⟨v, c, rfl⟩
        refine hv ⟨v, c, rfl, ?_⟩
        simp [List.isPrefixOf] at hp
        rcases hp with h | h
        · exact .inl h.symm
        · exact .inr h.symm
      all_goals
        rintro (h | h) <;> exact hno _ _ (by simp only [specialNames]; simp; first | rfl | skip) h

theorem operandOf_iff (name : Str) (f : Field) : fieldOfIdentifier name = .ret f ↔ OperandOf name f := by
  constructor
  · intro h
    obtain ⟨g, hg, hor⟩ := fieldOfIdentifier_ret name
    rw [h] at hg
    injection hg with hg
    subst hg
    rcases hor with hr | rfl
    · exact .register hr
    · refine .label fun g hg => ?_
      rw [registerNamed_ret hg] at h
      injection h with h
      subst h
      cases hg with
      | special h =>
        have : ∀ p ∈ specialNames, p.2 ≠ .identifier p.1 := by decide
        exact this _ h rfl
  · intro h
    cases h with
    | register h => exact registerNamed_ret h
    | label h =>
      obtain ⟨g, hg, hor⟩ := fieldOfIdentifier_ret name
      rcases hor with hr | rfl
      · exact absurd hr (h g)
      · exact hg

end C8S
