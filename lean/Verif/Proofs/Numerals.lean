import Verif.Spec.Lexical

/- Numbers written in decimal and hexadecimal. -/

namespace C8S

open Spec

theorem positional_snoc (base : Nat) (s : Str) (c : Char) : positional base (s ++ [c]) = positional base s * base + digitVal c := by
  simp [positional]

theorem digitVal_digitChar : ∀ d, d < 16 → digitVal (Nat.digitChar d) = d := by decide

theorem digitChar_decimal : ∀ d, d < 10 → Decimal (Nat.digitChar d) := by decide

theorem digitChar_hexadecimal : ∀ d, d < 16 → Hexadecimal (Nat.digitChar d) := by decide

theorem positional_toDigits {b : Nat} (hb : 1 < b) (hb' : b ≤ 16) (n : Nat) : positional b (Nat.toDigits b n) = n := by
  induction n using Nat.strongRecOn with
  | ind n ih =>
    by_cases h : n < b
    · rw [Nat.toDigits_of_lt_base h]
      simp only [positional, List.foldl_cons, List.foldl_nil]
      rw [digitVal_digitChar n (by omega)]
      omega
    · rw [Nat.toDigits_of_base_le hb (by omega), positional_snoc, ih _ (Nat.div_lt_self (by omega) hb),
        digitVal_digitChar _ (by have := Nat.mod_lt n (y := b) (by omega); omega)]
      rw [Nat.mul_comm]
      exact Nat.div_add_mod n b

theorem toDigits_all {b : Nat} (hb : 1 < b) {p : Char → Prop} (hp : ∀ d, d < b → p (Nat.digitChar d)) (n : Nat) :
    ∀ c ∈ Nat.toDigits b n, p c := by
  induction n using Nat.strongRecOn with
  | ind n ih =>
    by_cases h : n < b
    · rw [Nat.toDigits_of_lt_base h]
      intro c hc
      rw [List.mem_singleton.1 hc]
      exact hp n h
    · rw [Nat.toDigits_of_base_le hb (by omega)]
      intro c hc
      rcases List.mem_append.1 hc with hc | hc
      · exact ih _ (Nat.div_lt_self (by omega) hb) c hc
      · rw [List.mem_singleton.1 hc]
        exact hp _ (Nat.mod_lt n (by omega))

theorem lexeme_toDigits (bin : Str → Nat) {n : Nat} (h : n ≤ 4095) : Lexeme bin (Nat.toDigits 10 n) (.numericLiteral n) := by
  have := Lexeme.decimal (bin := bin) (s := Nat.toDigits 10 n) Nat.toDigits_ne_nil
    (toDigits_all (by omega) digitChar_decimal n) (by rw [positional_toDigits (by omega) (by omega)]; exact h)
  rwa [positional_toDigits (by omega) (by omega)] at this

theorem lexeme_hexDigits (bin : Str → Nat) {n : Nat} (h : n ≤ 4095) :
    Lexeme bin ('$' :: Nat.toDigits 16 n) (.numericLiteral n) := by
  have := Lexeme.hex (bin := bin) (c := '$') (s := Nat.toDigits 16 n) (.inl rfl) Nat.toDigits_ne_nil
    ((Nat.length_toDigits_le_iff (by omega) (by omega)).2 (by omega)) (toDigits_all (by omega) digitChar_hexadecimal n)
  rwa [positional_toDigits (by omega) (by omega)] at this

end C8S
