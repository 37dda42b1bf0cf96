import Verif.Spec.Shown
import Verif.Proofs.Edit
import Verif.Proofs.Disassembly

/- Lemmas about the texts of directives. -/

namespace C8S

open Spec

variable {bin : Str → Nat}

theorem hasCut_statements [Target] {text : Str} {nodes : List Node} (h : HasCut text nodes) :
    ∃ nodes', Statements text nodes' ∧ nodes'.map bareNode = nodes.map bareNode := by
  obtain ⟨ts, hc, hp⟩ := h
  obtain ⟨ts', hl, _, e⟩ := lex_of_cut hc [] []
  have hb : ts.map bare = ts'.map bare := by
    rw [← e, List.map_map]
    congr 1
    funext t
    cases t <;> rfl
  obtain ⟨ns', hp', e'⟩ := program_bare hb hp
  refine ⟨ns', ⟨[], ts', (scan_iff_lex _ _ _).2 hl, (parse_ok_iff _ _).2 hp'⟩, ?_⟩
  rw [e', List.map_map]
  congr 1
  funext n
  cases n <;> rfl

theorem upper_length : ∀ h, h < 16 → ∀ m, m < 16 → ∀ l, l < 16 → h = 0 ∨
    (showHexUpper (256 * h + 16 * m + l)).length = 3 := by decide +kernel

theorem upper_positional : ∀ h, h < 16 → ∀ m, m < 16 → ∀ l, l < 16 →
    positional 16 (showHexUpper (256 * h + 16 * m + l)) = 256 * h + 16 * m + l := by decide +kernel

theorem upper_digit : ∀ d, d < 16 → Hexadecimal (Nat.digitChar d).toUpper := by decide +kernel

theorem upper_digits {n : Nat} (h : n < 4096) (h' : 256 ≤ n) : (showHexUpper n).length = 3 ∧
    (∀ d ∈ showHexUpper n, Hexadecimal d) ∧ positional 16 (showHexUpper n) = n := by
  have h1 := upper_length (n / 256) (by omega) (n / 16 % 16) (by omega) (n % 16) (by omega)
  have h2 := upper_positional (n / 256) (by omega) (n / 16 % 16) (by omega) (n % 16) (by omega)
  rw [show 256 * (n / 256) + 16 * (n / 16 % 16) + n % 16 = n by omega] at h1 h2
  refine ⟨by omega, ?_, h2⟩
  intro d hd
  obtain ⟨c, hc, rfl⟩ := List.mem_map.1 hd
  exact toDigits_all (b := 16) (p := fun c => Hexadecimal c.toUpper) (by omega) upper_digit n c hc

theorem upper_plain {n : Nat} (h : n < 4096) (h' : 256 ≤ n) :
    Plain bin ('$' :: padLeft ' ' 3 (showHexUpper n)) (.numericLiteral n) := by
  obtain ⟨h1, h2, h3⟩ := upper_digits h h'
  rw [padLeft, h1]
  refine ⟨?_, error_not_at (by simp), by simp⟩
  have := Lexeme.hex (bin := bin) (c := '$') (s := showHexUpper n) (.inl rfl) (by rw [← List.length_pos_iff]; omega) (by omega) h2
  rwa [h3] at this

theorem upper_padded {n : Nat} (h : n < 256) : ∃ r, padLeft ' ' 3 (showHexUpper n) = ' ' :: r := by
  have hl := (Nat.length_toDigits_le_iff (b := 16) (n := n) (k := 2) (by omega) (by omega)).2 (by omega)
  rw [padLeft, showHexUpper, List.length_map,
    show 3 - (Nat.toDigits 16 n).length = (2 - (Nat.toDigits 16 n).length) + 1 by omega]
  exact ⟨_, rfl⟩

theorem cut_bracket {r : Str} {ts : List Token} (hr : ∀ t, r ≠ "i]".toList ++ t ∧ r ≠ "I]".toList ++ t) :
    ¬ Cut bin ('[' :: r) ts := by
  intro h
  generalize e : '[' :: r = text at h
  cases h with
  | done hb =>
    subst e
    exact absurd (hb '[' List.mem_cons_self) (by decide)
  | @token blanks s rest k ts hb hL hE hr' =>
    cases blanks with
    | cons c cs =>
      rw [List.cons_append, List.cons_append, List.cons.injEq] at e
      obtain ⟨rfl, _⟩ := e
      exact absurd (hb '[' List.mem_cons_self) (by decide)
    | nil =>
      obtain ⟨c, t, rfl, _⟩ := longest_head hL
      rw [List.nil_append, List.cons_append, List.cons.injEq] at e
      obtain ⟨rfl, e⟩ := e
      rcases (lexeme_indirect hL.1).1 with rfl | rfl
      · exact (hr rest).1 e
      · exact (hr rest).2 e

/-- What follows the name of a directive and a blank is tokenised by itself. -/
theorem cut_after_name {s r : Str} {c : Char} {ts : List Token} (hs : IsName s) (hc : ¬ (NameChar c ∨ c = '.'))
    (h : Cut bin ('.' :: (s ++ ' ' :: (c :: r))) ts) : ∃ tb, Cut bin (c :: r) tb := by
  have h0 : Cut bin ('.' :: (s ++ ' ' :: [])) [.directiveMarker noLoc, .identifier s noLoc] :=
    cut_dot (cut_plain (name_plain hs) (by decide) (cut_space (.done (by simp))))
  obtain ⟨tb, _, hb⟩ := cut_split (b := c :: r) h0 (by
    rintro d r' u k e hu hlast hj
    cases e
    rcases joins_char hu hj with ⟨v, e2, _⟩ | ⟨_, h'⟩
    · subst e2
      obtain ⟨-, rfl⟩ := lexeme_comment hu
      simp at hlast
    · exact hc h') (by simpa using h)
  exact ⟨tb, hb⟩

theorem org_name : IsName "org".toList := .inl ⟨'o', "rg".toList, rfl, by decide, by decide⟩
theorem equ_name : IsName "equ".toList := .inl ⟨'e', "qu".toList, rfl, by decide, by decide⟩
theorem db_name : IsName "db".toList := .inl ⟨'d', "b".toList, rfl, by decide, by decide⟩

/-- The text of a directive with a number of three digits. -/
theorem number_cut [Target] {s : Str} {n : Nat} (hs : IsName s) (h : n < 4096) (h' : 256 ≤ n) :
    HasCut ('.' :: (s ++ ' ' :: ('$' :: padLeft ' ' 3 (showHexUpper n) ++ ['\n']))) [.directive noLoc s [.numeric n]] := by
  refine ⟨[.directiveMarker noLoc, .identifier s noLoc, .numericLiteral n noLoc, .newline noLoc],
    cut_dot (cut_plain (name_plain hs) (by decide) (cut_space (cut_plain (upper_plain h h') (by decide)
      (cut_newline (.done (by simp)))))), ?_⟩
  exact Program.directive (args := [.numericLiteral n noLoc])
    (items_commas argumentKind [.numeric n] fun x _ => argument_token x _) (fun _ => ⟨_, _, rfl, _, rfl⟩)
    (.blank (.inl ⟨_, rfl⟩) .empty)

theorem number_uncut {s rest : Str} {n : Nat} {ts : List Token} (hs : IsName s) (h : n < 256) :
    ¬ Cut bin ('.' :: (s ++ ' ' :: ('$' :: padLeft ' ' 3 (showHexUpper n) ++ rest))) ts := by
  intro hc
  obtain ⟨r, e⟩ := upper_padded h
  rw [e] at hc
  obtain ⟨tb, hb⟩ := cut_after_name hs (by decide) hc
  exact cut_dollar_blank hb

theorem decimal_head (n : Nat) : ∃ c r, showDec n = c :: r ∧ Decimal c := by
  cases e : Nat.toDigits 10 n with
  | nil => exact absurd e Nat.toDigits_ne_nil
  | cons c r => exact ⟨c, r, e, toDigits_all (by omega) digitChar_decimal n c (by rw [e]; simp)⟩

theorem bytes_uncut {rest : Str} {n : Nat} {ts : List Token} :
    ¬ Cut bin ('.' :: ("db".toList ++ ' ' :: ('[' :: (showDec n ++ rest)))) ts := by
  intro hc
  obtain ⟨tb, hb⟩ := cut_after_name db_name (by decide) hc
  obtain ⟨c, r, e, hd⟩ := decimal_head n
  rw [e] at hb
  refine cut_bracket (fun t => ⟨fun h => ?_, fun h => ?_⟩) hb
  · cases (List.cons.inj h).1
    exact absurd hd (by decide)
  · cases (List.cons.inj h).1
    exact absurd hd (by decide)

theorem bareNode_directive {n : Node} {l : Loc} {s : Str} {xs : List Literal} (h : bareNode n = bareNode (.directive l s xs)) :
    ∃ l', n = .directive l' s xs := by
  cases n <;> cases h
  exact ⟨_, rfl⟩

/-! ### Directives of the same text -/

theorem showDec_inj {m n : Nat} (h : showDec m = showDec n) : m = n := by
  have h' := congrArg (positional 10) h
  rwa [showDec, showDec, positional_toDigits (by omega) (by omega), positional_toDigits (by omega) (by omega)] at h'

theorem upper_value {n : Nat} (h : n < 4096) : positional 16 (showHexUpper n) = n := by
  have h2 := upper_positional (n / 256) (by omega) (n / 16 % 16) (by omega) (n % 16) (by omega)
  rwa [show 256 * (n / 256) + 16 * (n / 16 % 16) + n % 16 = n by omega] at h2

theorem upper_unpadded (n : Nat) : (padLeft ' ' 3 (showHexUpper n)).filter (· ≠ ' ') = showHexUpper n := by
  rw [padLeft, List.filter_append, List.filter_eq_nil_iff.2 (by
    intro c hc
    rw [List.eq_of_mem_replicate hc]
    decide), List.nil_append, List.filter_eq_self.2]
  intro d hd
  obtain ⟨c, hc, rfl⟩ := List.mem_map.1 hd
  have := toDigits_all (b := 16) (p := fun c => Hexadecimal c.toUpper) (by omega) upper_digit n c hc
  rw [decide_eq_true_iff]
  intro e
  rw [e] at this
  exact absurd this (by decide)

theorem padded_inj {v w : U12} (h : padLeft ' ' 3 (showHexUpper v.toNat) = padLeft ' ' 3 (showHexUpper w.toNat)) : v = w := by
  have h' := congrArg (List.filter (· ≠ ' ')) h
  rw [upper_unpadded, upper_unpadded] at h'
  have h2 := congrArg (positional 16) h'
  rw [upper_value v.isLt, upper_value w.isLt] at h2
  exact BitVec.eq_of_toNat_eq h2

end C8S
