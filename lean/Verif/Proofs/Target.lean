import Verif.Proofs.Place

/- Tokenising on machines with words of different width. -/

namespace C8S

open Spec

theorem narrow_word (narrow wide : Target) (hle : narrow.bits ≤ wide.bits) (s : Str) :
    @wordBinary narrow s = @wordBinary wide s % 2 ^ narrow.bits :=
  (Nat.mod_mod_of_dvd _ (Nat.pow_dvd_pow 2 hle)).symm

/-- What a wide machine accepts, a narrow one reads alike. -/
theorem narrow_small (narrow wide : Target) (hle : narrow.bits ≤ wide.bits) {s : Str} (h : @wordBinary wide s ≤ 4095) :
    @wordBinary narrow s = @wordBinary wide s := by
  rw [narrow_word narrow wide hle]
  exact Nat.mod_eq_of_lt (@word_wide narrow _ (by omega))

/-- Which texts are tokens does not depend on the reading of binary digits. -/
theorem lexeme_reread {bin : Str → Nat} (bin' : Str → Nat) {s : Str} {k : Loc → Token} (h : Lexeme bin s k) :
    ∃ k', Lexeme bin' s k' := by
  cases h with
  | newline => exact ⟨_, .newline⟩
  | comma => exact ⟨_, .comma⟩
  | labelMarker => exact ⟨_, .labelMarker⟩
  | directiveMarker => exact ⟨_, .directiveMarker⟩
  | comment h => exact ⟨_, .comment h⟩
  | name h1 h2 => exact ⟨_, .name h1 h2⟩
  | indirect h => exact ⟨_, .indirect h⟩
  | string h => exact ⟨_, .string h⟩
  | hex h1 h2 h3 h4 => exact ⟨_, .hex h1 h2 h3 h4⟩
  | decimal h1 h2 h3 => exact ⟨_, .decimal h1 h2 h3⟩
  | decimalRange h1 h2 h3 => exact ⟨_, .decimalRange h1 h2 h3⟩
  | @binary s h1 h2 _ =>
    by_cases h : bin' s ≤ 4095
    · exact ⟨_, .binary h1 h2 h⟩
    · exact ⟨_, .binaryRange h1 h2 (by omega)⟩
  | @binaryRange s h1 h2 _ =>
    by_cases h : bin' s ≤ 4095
    · exact ⟨_, .binary h1 h2 h⟩
    · exact ⟨_, .binaryRange h1 h2 (by omega)⟩

/-- A token with a value for one reading, but the same text: the longest for the other reading as well. -/
theorem longest_reread {bin bin' : Str → Nat} {s rest : Str} {k k' : Loc → Token} (h : Longest bin s rest k)
    (h' : Lexeme bin' s k') : Longest bin' s rest k' := by
  refine ⟨h', fun s' rest' k'' e hl => ?_⟩
  obtain ⟨k3, h3⟩ := lexeme_reread bin hl
  exact h.2 s' rest' k3 e h3

/-- The token of a wide machine is that of a narrow one, unless it is an error for a binary number that is too large. -/
theorem lexeme_narrow (narrow wide : Target) (hle : narrow.bits ≤ wide.bits) {s : Str} {k : Loc → Token}
    (h : Lexeme (@wordBinary wide) s k) :
    Lexeme (@wordBinary narrow) s k ∨ ∃ digits, s = '%' :: digits ∧ k = .error (.binaryLiteralOutOfRange digits) ∧
      narrow.bits < digits.length ∧ Lexeme (@wordBinary narrow) s (.numericLiteral (positional 2 digits % 2 ^ narrow.bits)) := by
  cases h with
  | newline => exact .inl .newline
  | comma => exact .inl .comma
  | labelMarker => exact .inl .labelMarker
  | directiveMarker => exact .inl .directiveMarker
  | comment h => exact .inl (.comment h)
  | name h1 h2 => exact .inl (.name h1 h2)
  | indirect h => exact .inl (.indirect h)
  | string h => exact .inl (.string h)
  | hex h1 h2 h3 h4 => exact .inl (.hex h1 h2 h3 h4)
  | decimal h1 h2 h3 => exact .inl (.decimal h1 h2 h3)
  | decimalRange h1 h2 h3 => exact .inl (.decimalRange h1 h2 h3)
  | @binary s h1 h2 h3 =>
    left
    have e := narrow_small narrow wide hle h3
    rw [← e] at h3 ⊢
    exact .binary h1 h2 h3
  | @binaryRange s h1 h2 h3 =>
    by_cases h : @wordBinary narrow s ≤ 4095
    · refine .inr ⟨s, rfl, rfl, ?_, .binary h1 h2 h⟩
      refine Nat.lt_of_not_le fun hl => ?_
      have hp : positional 2 s < 2 ^ s.length := positional_lt 2 s (fun d hd => by
        rcases h2 d hd with rfl | rfl | rfl <;> decide)
      have hn : 2 ^ s.length ≤ 2 ^ narrow.bits := Nat.pow_le_pow_right (by omega) hl
      have hw : 2 ^ s.length ≤ 2 ^ wide.bits := Nat.pow_le_pow_right (by omega) (by omega)
      have e1 : @wordBinary narrow s = positional 2 s := Nat.mod_eq_of_lt (Nat.lt_of_lt_of_le hp hn)
      have e2 : @wordBinary wide s = positional 2 s := Nat.mod_eq_of_lt (Nat.lt_of_lt_of_le hp hw)
      omega
    · exact .inl (.binaryRange h1 h2 (by omega))

theorem lex_narrow (narrow wide : Target) (hle : narrow.bits ≤ wide.bits) {file before text : Str} {ts : List Token}
    (h : Lex (@wordBinary wide) file before text ts) :
    Lex (@wordBinary narrow) file before text ts ∨
    ∃ pre digits l more, ts = pre ++ [.error (.binaryLiteralOutOfRange digits) l] ∧ narrow.bits < digits.length ∧
      Lex (@wordBinary narrow) file before text
        (pre ++ .numericLiteral (positional 2 digits % 2 ^ narrow.bits) l :: more) := by
  induction h with
  | done h => exact .inl (.done h)
  | @token before blanks s rest k ts hb hL hE _ ih =>
    have hk : Lexeme (@wordBinary narrow) s k := by
      rcases lexeme_narrow narrow wide hle hL.1 with h | ⟨d, _, hk, _⟩
      · exact h
      · exact (hE ⟨_, hk⟩).elim
    rcases ih with ih | ⟨pre, digits, l, more, e, hd, ih⟩
    · exact .inl (.token hb (longest_reread hL hk) hE ih)
    · exact .inr ⟨_ :: pre, digits, l, more, by rw [e]; rfl, hd, .token hb (longest_reread hL hk) hE ih⟩
  | @outOfRange before blanks s rest k hb hL hE =>
    rcases lexeme_narrow narrow wide hle hL.1 with h | ⟨digits, _, rfl, hd, hk⟩
    · exact .inl (.outOfRange hb (longest_reread hL h) hE)
    · obtain ⟨more, hm⟩ := @lex_exists narrow file (before ++ blanks ++ s) rest
      exact .inr ⟨[], digits, _, more, rfl, hd, .token hb (longest_reread hL hk) (error_not_at (by simp)) hm⟩
  | malformed hb hc hn hM =>
    refine .inl (.malformed hb hc ?_ hM)
    intro s rest' k e hl
    obtain ⟨k', h'⟩ := lexeme_reread (@wordBinary wide) hl
    exact hn s rest' k' e h'

end C8S
