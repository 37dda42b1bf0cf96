import Verif.Model.Bytes
import Verif.Proofs.Files

/- Lemmas on UTF-8 bytes. -/

namespace C8S

open Spec

/-- The bytes of a character, as numbers. -/
theorem encode_toNat (c : Char) : ((String.utf8EncodeChar c).map UInt8.toBitVec).map BitVec.toNat =
    if c.toNat < 0x80 then [c.toNat]
    else if c.toNat < 0x800 then [0xC0 + c.toNat / 64, 0x80 + c.toNat % 64]
    else if c.toNat < 0x10000 then [0xE0 + c.toNat / 4096, 0x80 + c.toNat / 64 % 64, 0x80 + c.toNat % 64]
    else [0xF0 + c.toNat / 262144, 0x80 + c.toNat / 4096 % 64, 0x80 + c.toNat / 64 % 64, 0x80 + c.toNat % 64] := by
  have hv : c.toNat < 0x110000 := by
    have := c.valid
    unfold UInt32.isValidChar Nat.isValidChar at this
    show c.val.toNat < _
    omega
  unfold String.utf8EncodeChar
  simp only [show c.val.toNat = c.toNat from rfl]
  by_cases h1 : c.toNat ≤ 127
  · rw [if_pos h1, if_pos (show c.toNat < 0x80 by omega)]
    simp only [List.map_cons, List.map_nil, UInt8.toNat_toBitVec, UInt8.toNat_ofNat', List.cons.injEq, and_true]
    omega
  rw [if_neg h1, if_neg (show ¬ c.toNat < 0x80 by omega)]
  by_cases h2 : c.toNat ≤ 2047
  · rw [if_pos h2, if_pos (show c.toNat < 0x800 by omega)]
    simp only [List.map_cons, List.map_nil, UInt8.toNat_toBitVec, UInt8.toNat_ofNat', List.cons.injEq, and_true]
    omega
  rw [if_neg h2, if_neg (show ¬ c.toNat < 0x800 by omega)]
  by_cases h3 : c.toNat ≤ 65535
  · rw [if_pos h3, if_pos (show c.toNat < 0x10000 by omega)]
    simp only [List.map_cons, List.map_nil, UInt8.toNat_toBitVec, UInt8.toNat_ofNat', List.cons.injEq, and_true]
    omega
  rw [if_neg h3, if_neg (show ¬ c.toNat < 0x10000 by omega)]
  simp only [List.map_cons, List.map_nil, UInt8.toNat_toBitVec, UInt8.toNat_ofNat', List.cons.injEq, and_true]
  omega

theorem char_range (c : Char) : c.toNat < 0xD800 ∨ (0xDFFF < c.toNat ∧ c.toNat < 0x110000) := c.valid

theorem toNat_ofNat_char {n : Nat} (h : n < 0xD800 ∨ (0xDFFF < n ∧ n < 0x110000)) : (Char.ofNat n).toNat = n :=
  by
  unfold Char.ofNat
  rw [dif_pos (show n.isValidChar from h)]
  rfl

theorem bytes_inj {a b : List U8} (h : a.map BitVec.toNat = b.map BitVec.toNat) : a = b :=
  List.map_inj_right (fun _ _ e => BitVec.eq_of_toNat_eq e) |>.1 h

theorem utf8Bytes_cons (c : Char) (s : Str) :
    utf8Bytes (c :: s) = (String.utf8EncodeChar c).map UInt8.toBitVec ++ utf8Bytes s := rfl

theorem length1 {l : List U8} (h : l.length = 1) : ∃ a, l = [a] := List.length_eq_one_iff.1 h

theorem length2 {l : List U8} (h : l.length = 2) : ∃ a b, l = [a, b] := by
  match l, h with
  | [a, b], _ => exact ⟨a, b, rfl⟩

theorem length3 {l : List U8} (h : l.length = 3) : ∃ a b c, l = [a, b, c] := by
  match l, h with
  | [a, b, c], _ => exact ⟨a, b, c, rfl⟩

theorem length4 {l : List U8} (h : l.length = 4) : ∃ a b c d, l = [a, b, c, d] := by
  cases l with
  | nil => cases h
  | cons a l =>
    obtain ⟨b, c, d, rfl⟩ := length3 (Nat.succ.inj h)
    exact ⟨a, b, c, d, rfl⟩

/-- A character in front is read. -/
theorem fromUtf8_cons (c : Char) (rest : List U8) :
    fromUtf8 ((String.utf8EncodeChar c).map UInt8.toBitVec ++ rest) = (fromUtf8 rest).map (c :: ·) := by
  have he := encode_toNat c
  have hr := char_range c
  generalize (String.utf8EncodeChar c).map UInt8.toBitVec = l at he
  by_cases h1 : c.toNat < 0x80
  · rw [if_pos h1] at he
    obtain ⟨a, rfl⟩ := length1 (by simpa using congrArg List.length he)
    simp only [List.map_cons, List.map_nil, List.cons.injEq, and_true] at he
    show fromUtf8 (a :: rest) = _
    rw [fromUtf8.eq_def]
    dsimp only
    rw [if_pos (by omega), he, Char.ofNat_toNat]
  · rw [if_neg h1] at he
    by_cases h2 : c.toNat < 0x800
    · rw [if_pos h2] at he
      obtain ⟨a, b, rfl⟩ := length2 (by simpa using congrArg List.length he)
      simp only [List.map_cons, List.map_nil, List.cons.injEq, and_true] at he
      show fromUtf8 (a :: b :: rest) = _
      rw [fromUtf8.eq_def]
      dsimp only
      rw [if_neg (by omega)]
      rw [if_pos (by omega), if_pos (by unfold isContinuation; rw [decide_eq_true_iff]; omega),
        show a.toNat % 32 * 64 + b.toNat % 64 = c.toNat by omega, Char.ofNat_toNat]
    · rw [if_neg h2] at he
      by_cases h3 : c.toNat < 0x10000
      · rw [if_pos h3] at he
        obtain ⟨a, b, d, rfl⟩ := length3 (by simpa using congrArg List.length he)
        simp only [List.map_cons, List.map_nil, List.cons.injEq, and_true] at he
        show fromUtf8 (a :: b :: d :: rest) = _
        rw [fromUtf8.eq_def]
        dsimp only
        rw [if_neg (by omega)]
        rw [if_neg (by omega)]
        rw [if_pos (by unfold threeByteStart; rw [decide_eq_true_iff]; omega),
          if_pos (by unfold isContinuation; rw [decide_eq_true_iff]; omega),
          show a.toNat % 16 * 4096 + b.toNat % 64 * 64 + d.toNat % 64 = c.toNat by omega, Char.ofNat_toNat]
      · rw [if_neg h3] at he
        obtain ⟨a, b, d, e, rfl⟩ := length4 (by simpa using congrArg List.length he)
        simp only [List.map_cons, List.map_nil, List.cons.injEq, and_true] at he
        show fromUtf8 (a :: b :: d :: e :: rest) = _
        rw [fromUtf8.eq_def]
        dsimp only
        rw [if_neg (by omega)]
        rw [if_neg (by omega), if_neg (by unfold threeByteStart; rw [decide_eq_true_iff]; omega),
          if_pos (by unfold fourByteStart isContinuation; simp only [Bool.and_eq_true, decide_eq_true_iff]; omega),
          show a.toNat % 8 * 262144 + b.toNat % 64 * 4096 + d.toNat % 64 * 64 + e.toNat % 64 = c.toNat by omega,
          Char.ofNat_toNat]

theorem fromUtf8_bytes (s : Str) : fromUtf8 (utf8Bytes s) = some s := by
  induction s with
  | nil => rfl
  | cons c s ih => rw [utf8Bytes_cons, fromUtf8_cons, ih]; rfl

theorem encode_ofNat {n : Nat} (h : n < 0xD800 ∨ (0xDFFF < n ∧ n < 0x110000)) {l : List U8}
    (hl : l.map BitVec.toNat = if n < 0x80 then [n] else if n < 0x800 then [0xC0 + n / 64, 0x80 + n % 64]
      else if n < 0x10000 then [0xE0 + n / 4096, 0x80 + n / 64 % 64, 0x80 + n % 64]
      else [0xF0 + n / 262144, 0x80 + n / 4096 % 64, 0x80 + n / 64 % 64, 0x80 + n % 64]) (s : Str) :
    utf8Bytes (Char.ofNat n :: s) = l ++ utf8Bytes s := by
  rw [utf8Bytes_cons]
  congr 1
  apply bytes_inj
  rw [encode_toNat, toNat_ofNat_char h, hl]

/-- What is read is the text of the bytes. -/
theorem bytes_fromUtf8 : ∀ (n : Nat) (l : List U8) (s : Str), l.length ≤ n → fromUtf8 l = some s → utf8Bytes s = l := by
  intro n
  induction n with
  | zero =>
    intro l s hn h
    obtain rfl := List.length_eq_zero_iff.1 (Nat.le_zero.1 hn)
    cases h
    rfl
  | succ n ih =>
    intro l s hn h
    match l, h with
    | [], h =>
      cases h
      rfl
    | a :: as, h =>
      have hlen : as.length ≤ n := Nat.le_of_succ_le_succ hn
      rw [fromUtf8.eq_def] at h
      dsimp only at h
      split at h
      · rename_i h1
        obtain ⟨t, ht, rfl⟩ := Option.map_eq_some_iff.1 h
        have := ih _ _ hlen ht
        rw [encode_ofNat (l := [a]) (by omega) (by rw [if_pos h1]; rfl), this]
        rfl
      · rename_i h1
        cases as with
        | nil => cases h
        | cons b bs =>
          simp only at h
          have hlen : bs.length ≤ n := by simp only [List.length_cons] at hlen; omega
          split at h
          · rename_i h2
            split at h
            · rename_i h3
              unfold isContinuation at h3
              rw [decide_eq_true_iff] at h3
              obtain ⟨t, ht, rfl⟩ := Option.map_eq_some_iff.1 h
              have := ih _ _ hlen ht
              rw [encode_ofNat (l := [a, b]) (by omega) (by
                rw [if_neg (by omega), if_pos (by omega)]
                simp only [List.map_cons, List.map_nil, List.cons.injEq, and_true]
                omega), this]
              rfl
            · cases h
          · rename_i h2
            cases bs with
            | nil => cases h
            | cons c cs =>
              simp only at h
              have hlen : cs.length ≤ n := by simp only [List.length_cons] at hlen; omega
              split at h
              · rename_i h3
                split at h
                · rename_i h4
                  unfold isContinuation at h4
                  unfold threeByteStart at h3
                  rw [decide_eq_true_iff] at h3 h4
                  obtain ⟨t, ht, rfl⟩ := Option.map_eq_some_iff.1 h
                  have := ih _ _ hlen ht
                  rw [encode_ofNat (l := [a, b, c]) (by omega) (by
                    rw [if_neg (by omega), if_neg (by omega), if_pos (by omega)]
                    simp only [List.map_cons, List.map_nil, List.cons.injEq, and_true]
                    omega), this]
                  rfl
                · cases h
              · rename_i h3
                cases cs with
                | nil => cases h
                | cons d ds =>
                  simp only at h
                  have hlen : ds.length ≤ n := by simp only [List.length_cons] at hlen; omega
                  split at h
                  · rename_i h4
                    unfold isContinuation fourByteStart at h4
                    simp only [Bool.and_eq_true, decide_eq_true_iff] at h4
                    obtain ⟨t, ht, rfl⟩ := Option.map_eq_some_iff.1 h
                    have := ih _ _ hlen ht
                    rw [encode_ofNat (l := [a, b, c, d]) (by omega) (by
                      rw [if_neg (by omega), if_neg (by omega), if_neg (by omega)]
                      simp only [List.map_cons, List.map_nil, List.cons.injEq, and_true]
                      omega), this]
                    rfl
                  · cases h

theorem fromUtf8_iff (l : List U8) (s : Str) : fromUtf8 l = some s ↔ utf8Bytes s = l :=
  ⟨bytes_fromUtf8 _ l s (Nat.le_refl _), fun h => h ▸ fromUtf8_bytes s⟩

end C8S
