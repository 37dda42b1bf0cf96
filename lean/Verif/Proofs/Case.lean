import Verif.Spec.Case

namespace C8S

open Spec

theorem char_le_iff (c d : Char) : c ≤ d ↔ c.toNat ≤ d.toNat := Iff.rfl

theorem toNat_ofNat_small {n : Nat} (h : n < 55296) : (Char.ofNat n).toNat = n := by
  have : n.isValidChar := .inl h
  unfold Char.ofNat
  rw [dif_pos this]
  rfl

theorem char_ext {c d : Char} (h : c.toNat = d.toNat) : c = d :=
  Char.ext (UInt32.toNat_inj.1 h)

theorem lowerChar_toNat (c : Char) :
    (lowerChar c).toNat = if 65 ≤ c.toNat ∧ c.toNat ≤ 90 then c.toNat + 32 else if c.toNat = 0x212A then 0x6B else c.toNat := by
  unfold lowerChar
  simp only [char_le_iff]
  have e1 : 'A'.toNat = 65 := rfl
  have e2 : 'Z'.toNat = 90 := rfl
  rw [e1, e2]
  by_cases h : 65 ≤ c.toNat ∧ c.toNat ≤ 90
  · rw [if_pos h, if_pos h]
    exact toNat_ofNat_small (by omega)
  · rw [if_neg h, if_neg h]
    by_cases h' : c.toNat = 0x212A
    · rw [if_pos h', if_pos h']; rfl
    · rw [if_neg h', if_neg h']

theorem lowerChar_eq_iff (c d : Char) : lowerChar c = lowerChar d ↔ SameLetter c d ∨ (LetterK c ∧ LetterK d) := by
  have e : c = d ↔ c.toNat = d.toNat := ⟨fun h => h ▸ rfl, char_ext⟩
  have e' : lowerChar c = lowerChar d ↔ (lowerChar c).toNat = (lowerChar d).toNat := ⟨fun h => h ▸ rfl, char_ext⟩
  have f : ∀ x : Char, (65 ≤ x.toNat ∧ x.toNat ≤ 90 ∧ (lowerChar x).toNat = x.toNat + 32) ∨
      (x.toNat = 0x212A ∧ (lowerChar x).toNat = 0x6B) ∨
      (¬ (65 ≤ x.toNat ∧ x.toNat ≤ 90) ∧ x.toNat ≠ 0x212A ∧ (lowerChar x).toNat = x.toNat) := by
    intro x
    rw [lowerChar_toNat]
    by_cases h : 65 ≤ x.toNat ∧ x.toNat ≤ 90
    · exact .inl ⟨h.1, h.2, if_pos h⟩
    · rw [if_neg h]
      by_cases h' : x.toNat = 0x212A
      · exact .inr (.inl ⟨h', if_pos h'⟩)
      · exact .inr (.inr ⟨h, h', if_neg h'⟩)
  have fc := f c
  have fd := f d
  clear f
  unfold SameLetter Capital LetterK
  rw [e', e]
  omega

theorem toLowercase_eq_iff (s t : Str) : toLowercase s = toLowercase t ↔ SameWord s t := by
  unfold toLowercase
  induction s generalizing t with
  | nil =>
    cases t with
    | nil => exact ⟨fun _ => .nil, fun _ => rfl⟩
    | cons d t => exact ⟨fun h => by simp at h, fun h => by cases h⟩
  | cons c s ih =>
    cases t with
    | nil => exact ⟨fun h => by simp at h, fun h => by cases h⟩
    | cons d t =>
      rw [List.map_cons, List.map_cons, List.cons.injEq, lowerChar_eq_iff, ih]
      exact ⟨fun h => .cons h.1 h.2, fun h => by cases h; exact ⟨‹_›, ‹_›⟩⟩

theorem Spec.SameWord.refl (s : Str) : SameWord s s := (toLowercase_eq_iff s s).1 rfl
theorem Spec.SameWord.symm {s t : Str} (h : SameWord s t) : SameWord t s :=
  (toLowercase_eq_iff t s).1 ((toLowercase_eq_iff s t).2 h).symm
theorem Spec.SameWord.trans {s t u : Str} (h : SameWord s t) (h' : SameWord t u) : SameWord s u :=
  (toLowercase_eq_iff s u).1 (((toLowercase_eq_iff s t).2 h).trans ((toLowercase_eq_iff t u).2 h'))

theorem Spec.SameLetters.word {s t : Str} (h : SameLetters s t) : SameWord s t := by
  induction h with
  | nil => exact .nil
  | cons h _ ih => exact .cons (.inl h) ih

theorem sameWord_length {s t : Str} (h : SameWord s t) : t.length = s.length := by
  induction h with
  | nil => rfl
  | cons _ _ ih => simp [ih]

/-- A word without the letter `k` has no third spelling of a letter. -/
theorem Spec.SameWord.letters {s t : Str} (h : SameWord s t) (hk : ∀ c ∈ t, ¬ LetterK c) : SameLetters s t := by
  induction h with
  | nil => exact .nil
  | cons h _ ih =>
    refine .cons ?_ (ih fun c hc => hk c (List.mem_cons_of_mem _ hc))
    rcases h with h | h
    · exact h
    · exact absurd h.2 (hk _ List.mem_cons_self)

/-- Comparing the lower-cased string with a small-letter constant. -/
theorem toLowercase_eq_const {s k : Str} (h : toLowercase k = k) (hk : ∀ c ∈ k, ¬ LetterK c) :
    toLowercase s = k ↔ SameLetters s k := by
  have e : toLowercase s = k ↔ SameWord s k := by rw [← toLowercase_eq_iff, h]
  rw [e]
  exact ⟨fun h => h.letters hk, fun h => h.word⟩

theorem sameLetter_trans {c d e : Char} (h : SameLetter c d) (h' : SameLetter d e) : SameLetter c e := by
  have i : ∀ a b : Char, a = b ↔ a.toNat = b.toNat := fun a b => ⟨fun h => h ▸ rfl, char_ext⟩
  unfold SameLetter Capital at *
  rw [i] at *
  omega

theorem Spec.SameLetters.refl (s : Str) : SameLetters s s := by
  induction s with
  | nil => exact .nil
  | cons c s ih => exact .cons (.inl rfl) ih
theorem Spec.SameLetters.symm {s t : Str} (h : SameLetters s t) : SameLetters t s := by
  induction h with
  | nil => exact .nil
  | cons h _ ih => exact .cons (by unfold SameLetter at *; rcases h with h | h | h <;> simp [h]) ih
theorem Spec.SameLetters.trans {s t u : Str} (h : SameLetters s t) (h' : SameLetters t u) : SameLetters s u := by
  induction h generalizing u with
  | nil => exact h'
  | cons h _ ih =>
    cases h' with
    | cons h1 h2 => exact .cons (sameLetter_trans h h1) (ih h2)

/-- A lower case and the model's agree as far as ASCII constants are concerned. -/
theorem lowerCase_eq_iff {s t k : Str} (h : LowerCase s t) (hk : ∀ c ∈ k, c.toNat < 128) : t = k ↔ toLowercase s = k := by
  induction h generalizing k with
  | nil => rfl
  | @capital c d s t hc _ ih =>
    have e : lowerChar c = d := char_ext (by rw [lowerChar_toNat, if_pos ⟨hc.1, hc.2.1⟩]; exact hc.2.2.symm)
    cases k with
    | nil => simp [toLowercase]
    | cons x k =>
      have := ih (k := k) fun c hc => hk c (List.mem_cons_of_mem _ hc)
      simp only [toLowercase, List.map_cons, List.cons.injEq, e] at this ⊢
      rw [this]
  | @ascii c s t hc hn _ ih =>
    have e : lowerChar c = c := char_ext (by rw [lowerChar_toNat, if_neg hn, if_neg (by omega)])
    cases k with
    | nil => simp [toLowercase]
    | cons x k =>
      have := ih (k := k) fun c hc => hk c (List.mem_cons_of_mem _ hc)
      simp only [toLowercase, List.map_cons, List.cons.injEq, e] at this ⊢
      rw [this]
  | @kelvin c s t hc _ ih =>
    have e : lowerChar c = 'k' := char_ext (by rw [lowerChar_toNat, if_neg (by omega), if_pos hc]; rfl)
    cases k with
    | nil => simp [toLowercase]
    | cons x k =>
      have := ih (k := k) fun c hc => hk c (List.mem_cons_of_mem _ hc)
      simp only [toLowercase, List.map_cons, List.cons.injEq, e] at this ⊢
      rw [this]
  | @other c w s t hc hn hw _ ih =>
    have e : lowerChar c = c := char_ext (by rw [lowerChar_toNat, if_neg (by omega), if_neg hn])
    constructor
    · rintro rfl
      obtain ⟨d, hd, h⟩ := hw
      have := hk d (List.mem_append_left _ hd)
      omega
    · rintro rfl
      have := hk c (by rw [toLowercase, List.map_cons, e]; exact List.mem_cons_self)
      omega

end C8S
