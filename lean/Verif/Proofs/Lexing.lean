import Verif.Proofs.Slice

/- The scanner takes the longest token at each step. -/

namespace C8S

open Spec

variable {bin : Str → Nat}

/-! ### Tokens by first character -/

theorem lexeme_ne_nil {s : Str} {k : Loc → Token} (h : Lexeme bin s k) : s ≠ [] := by
  cases h <;> simp_all

/-- All forms of a token with a given first character. -/
theorem lexeme_cons {c : Char} {t : Str} {k : Loc → Token} (h : Lexeme bin (c :: t) k) :
    (c = '\n' ∧ t = [] ∧ k = .newline) ∨
    (c = ',' ∧ t = [] ∧ k = .comma) ∨
    (c = ':' ∧ t = [] ∧ k = .labelMarker) ∨
    (c = '.' ∧ t = [] ∧ k = .directiveMarker) ∨
    (c = ';' ∧ '\n' ∉ t ∧ k = .singleLineComment (c :: t)) ∨
    (NameStart c ∧ (∀ d ∈ t, NameChar d) ∧ k = .identifier (c :: t)) ∨
    (c = '[' ∧ (t = "i]".toList ∨ t = "I]".toList) ∧ k = .identifier (c :: t)) ∨
    (c = '"' ∧ ∃ s, t = s ++ ['"'] ∧ StringBody s ∧ k = .stringLiteral s) ∨
    ((c = '$' ∨ c = '#') ∧ t ≠ [] ∧ t.length ≤ 3 ∧ (∀ d ∈ t, Hexadecimal d) ∧ k = .numericLiteral (positional 16 t)) ∨
    (Decimal c ∧ (∀ d ∈ t, Decimal d) ∧ ((positional 10 (c :: t) ≤ 4095 ∧ k = .numericLiteral (positional 10 (c :: t))) ∨
      (4095 < positional 10 (c :: t) ∧ k = .error (.decimalLiteralOutOfRange (c :: t))))) ∨
    (c = '%' ∧ t ≠ [] ∧ (∀ d ∈ t, Binary d) ∧ ((bin t ≤ 4095 ∧ k = .numericLiteral (bin t)) ∨
      (4095 < bin t ∧ k = .error (.binaryLiteralOutOfRange t)))) := by
  generalize hx : c :: t = x at h
  cases h with
  | newline => simp_all
  | comma => simp_all
  | labelMarker => simp_all
  | directiveMarker => simp_all
  | comment h => simp_all
  | name h1 h2 =>
    simp only [List.cons.injEq] at hx
    obtain ⟨rfl, rfl⟩ := hx
    exact .inr (.inr (.inr (.inr (.inr (.inl ⟨h1, h2, rfl⟩)))))
  | indirect h =>
    simp only [List.cons.injEq] at hx
    obtain ⟨rfl, rfl⟩ := hx
    refine .inr (.inr (.inr (.inr (.inr (.inr (.inl ⟨rfl, ?_, rfl⟩))))))
    rcases h with rfl | rfl
    · exact .inl rfl
    · exact .inr rfl
  | string h =>
    simp only [List.cons.injEq] at hx
    obtain ⟨rfl, rfl⟩ := hx
    exact .inr (.inr (.inr (.inr (.inr (.inr (.inr (.inl ⟨rfl, _, rfl, h, rfl⟩)))))))
  | hex h1 h2 h3 h4 =>
    simp only [List.cons.injEq] at hx
    obtain ⟨rfl, rfl⟩ := hx
    exact .inr (.inr (.inr (.inr (.inr (.inr (.inr (.inr (.inl ⟨h1, h2, h3, h4, rfl⟩))))))))
  | decimal h1 h2 h3 =>
    subst hx
    exact .inr (.inr (.inr (.inr (.inr (.inr (.inr (.inr (.inr (.inl ⟨h2 c List.mem_cons_self,
      fun d hd => h2 d (List.mem_cons_of_mem _ hd), .inl ⟨h3, rfl⟩⟩)))))))))
  | decimalRange h1 h2 h3 =>
    subst hx
    exact .inr (.inr (.inr (.inr (.inr (.inr (.inr (.inr (.inr (.inl ⟨h2 c List.mem_cons_self,
      fun d hd => h2 d (List.mem_cons_of_mem _ hd), .inr ⟨h3, rfl⟩⟩)))))))))
  | binary h1 h2 h3 =>
    simp only [List.cons.injEq] at hx
    obtain ⟨rfl, rfl⟩ := hx
    exact .inr (.inr (.inr (.inr (.inr (.inr (.inr (.inr (.inr (.inr ⟨rfl, h1, h2, .inl ⟨h3, rfl⟩⟩)))))))))
  | binaryRange h1 h2 h3 =>
    simp only [List.cons.injEq] at hx
    obtain ⟨rfl, rfl⟩ := hx
    exact .inr (.inr (.inr (.inr (.inr (.inr (.inr (.inr (.inr (.inr ⟨rfl, h1, h2, .inr ⟨h3, rfl⟩⟩)))))))))

/-! Contradictions between character classes. -/

theorem name_not_special {c : Char} (h : NameStart c) :
    c ≠ '\n' ∧ c ≠ ',' ∧ c ≠ ':' ∧ c ≠ '.' ∧ c ≠ ';' ∧ c ≠ '[' ∧ c ≠ '"' ∧ c ≠ '$' ∧ c ≠ '#' ∧ c ≠ '%' ∧ ¬ Decimal c ∧
      c ≠ '+' ∧ c ≠ '\\' := by
  refine ⟨?_, ?_, ?_, ?_, ?_, ?_, ?_, ?_, ?_, ?_, ?_, ?_, ?_⟩
  all_goals first
    | (rintro rfl; exact absurd h (by decide))
    | skip
  intro hd
  unfold NameStart Decimal at *
  simp only [char_le_iff] at *
  rcases h with rfl | h | h
  · simp at hd
  · simp at h hd
    omega
  · simp at h hd
    omega

theorem dec_not_special {c : Char} (h : Decimal c) :
    c ≠ '\n' ∧ c ≠ ',' ∧ c ≠ ':' ∧ c ≠ '.' ∧ c ≠ ';' ∧ c ≠ '[' ∧ c ≠ '"' ∧ c ≠ '$' ∧ c ≠ '#' ∧ c ≠ '%' ∧ ¬ NameStart c ∧
      c ≠ '+' ∧ c ≠ '\\' := by
  refine ⟨?_, ?_, ?_, ?_, ?_, ?_, ?_, ?_, ?_, ?_, ?_, ?_, ?_⟩
  all_goals first
    | (rintro rfl; exact absurd h (by decide))
    | skip
  exact fun hn => (name_not_special hn).2.2.2.2.2.2.2.2.2.2.1 h

theorem hex_no_plus {s : Str} (h : ∀ c ∈ s, Hexadecimal c) : '+' ∉ s := fun hm => absurd (h _ hm) (by decide)

theorem dec_no_plus {s : Str} (h : ∀ c ∈ s, Decimal c) : '+' ∉ s := fun hm => absurd (h _ hm) (by decide)

/-- Inversion for each first character. -/
theorem lexeme_comment {t : Str} {k : Loc → Token} (h : Lexeme bin (';' :: t) k) :
    '\n' ∉ t ∧ k = .singleLineComment (';' :: t) := by
  rcases lexeme_cons h with h | h | h | h | h | h | h | h | h | h | h
  all_goals first
    | exact h.2
    | (exact absurd h.1 (by decide))

theorem lexeme_newline {t : Str} {k : Loc → Token} (h : Lexeme bin ('\n' :: t) k) : t = [] ∧ k = .newline := by
  rcases lexeme_cons h with h | h | h | h | h | h | h | h | h | h | h
  all_goals first
    | exact h.2
    | (exact absurd h.1 (by decide))

theorem lexeme_comma {t : Str} {k : Loc → Token} (h : Lexeme bin (',' :: t) k) : t = [] ∧ k = .comma := by
  rcases lexeme_cons h with h | h | h | h | h | h | h | h | h | h | h
  all_goals first
    | exact h.2
    | (exact absurd h.1 (by decide))

theorem lexeme_labelMarker {t : Str} {k : Loc → Token} (h : Lexeme bin (':' :: t) k) : t = [] ∧ k = .labelMarker := by
  rcases lexeme_cons h with h | h | h | h | h | h | h | h | h | h | h
  all_goals first
    | exact h.2
    | (exact absurd h.1 (by decide))

theorem lexeme_directiveMarker {t : Str} {k : Loc → Token} (h : Lexeme bin ('.' :: t) k) :
    t = [] ∧ k = .directiveMarker := by
  rcases lexeme_cons h with h | h | h | h | h | h | h | h | h | h | h
  all_goals first
    | exact h.2
    | (exact absurd h.1 (by decide))

theorem lexeme_indirect {t : Str} {k : Loc → Token} (h : Lexeme bin ('[' :: t) k) :
    (t = "i]".toList ∨ t = "I]".toList) ∧ k = .identifier ('[' :: t) := by
  rcases lexeme_cons h with h | h | h | h | h | h | h | h | h | h | h
  all_goals first
    | exact h.2
    | (exact absurd h.1 (by decide))

theorem lexeme_string {t : Str} {k : Loc → Token} (h : Lexeme bin ('"' :: t) k) :
    ∃ s, t = s ++ ['"'] ∧ StringBody s ∧ k = .stringLiteral s := by
  rcases lexeme_cons h with h | h | h | h | h | h | h | h | h | h | h
  all_goals first
    | exact h.2
    | (exact absurd h.1 (by decide))

theorem lexeme_hex {c : Char} {t : Str} {k : Loc → Token} (hc : c = '$' ∨ c = '#') (h : Lexeme bin (c :: t) k) :
    t ≠ [] ∧ t.length ≤ 3 ∧ (∀ d ∈ t, Hexadecimal d) ∧ k = .numericLiteral (positional 16 t) := by
  rcases lexeme_cons h with h | h | h | h | h | h | h | h | h | h | h
  all_goals first
    | exact h.2
    | (rcases hc with rfl | rfl <;> exact absurd h.1 (by decide))

theorem lexeme_binary {t : Str} {k : Loc → Token} (h : Lexeme bin ('%' :: t) k) :
    t ≠ [] ∧ (∀ d ∈ t, Binary d) ∧ ((bin t ≤ 4095 ∧ k = .numericLiteral (bin t)) ∨
      (4095 < bin t ∧ k = .error (.binaryLiteralOutOfRange t))) := by
  rcases lexeme_cons h with h | h | h | h | h | h | h | h | h | h | h
  all_goals first
    | exact h.2
    | (exact absurd h.1 (by decide))

theorem lexeme_decimal {c : Char} {t : Str} {k : Loc → Token} (hc : Decimal c) (h : Lexeme bin (c :: t) k) :
    (∀ d ∈ t, Decimal d) ∧ ((positional 10 (c :: t) ≤ 4095 ∧ k = .numericLiteral (positional 10 (c :: t))) ∨
      (4095 < positional 10 (c :: t) ∧ k = .error (.decimalLiteralOutOfRange (c :: t)))) := by
  obtain ⟨a1, a2, a3, a4, a5, a6, a7, a8, a9, a10, a11, _⟩ := dec_not_special hc
  rcases lexeme_cons h with h | h | h | h | h | h | h | h | h | h | h
  all_goals first
    | exact h.2
    | (have h := h.1; contradiction)
    | (rcases h.1 with h | h <;> contradiction)

theorem lexeme_name {c : Char} {t : Str} {k : Loc → Token} (hc : NameStart c) (h : Lexeme bin (c :: t) k) :
    (∀ d ∈ t, NameChar d) ∧ k = .identifier (c :: t) := by
  obtain ⟨a1, a2, a3, a4, a5, a6, a7, a8, a9, a10, a11, _⟩ := name_not_special hc
  rcases lexeme_cons h with h | h | h | h | h | h | h | h | h | h | h
  all_goals first
    | exact h.2
    | (have h := h.1; contradiction)
    | (rcases h.1 with h | h <;> contradiction)

/-- A character that begins no token. -/
theorem no_lexeme {c : Char} {t : Str} {k : Loc → Token} (h : Lexeme bin (c :: t) k) :
    c = '\n' ∨ c = ',' ∨ c = ':' ∨ c = '.' ∨ c = ';' ∨ NameStart c ∨ c = '[' ∨ c = '"' ∨ c = '$' ∨ c = '#' ∨
      Decimal c ∨ c = '%' := by
  rcases lexeme_cons h with h | h | h | h | h | h | h | h | h | h | h
  · simp [h.1]
  · simp [h.1]
  · simp [h.1]
  · simp [h.1]
  · simp [h.1]
  · simp [h.1]
  · simp [h.1]
  · simp [h.1]
  · rcases h.1 with h | h <;> simp [h]
  · simp [h.1]
  · simp [h.1]

/-- A token is determined by its text. -/
theorem lexeme_unique {s : Str} {k k' : Loc → Token} (h : Lexeme bin s k) (h' : Lexeme bin s k') : k = k' := by
  cases s with
  | nil => exact (lexeme_ne_nil h rfl).elim
  | cons c t =>
    rcases no_lexeme h with rfl | rfl | rfl | rfl | rfl | hc | rfl | rfl | rfl | rfl | hc | rfl
    · rw [(lexeme_newline h).2, (lexeme_newline h').2]
    · rw [(lexeme_comma h).2, (lexeme_comma h').2]
    · rw [(lexeme_labelMarker h).2, (lexeme_labelMarker h').2]
    · rw [(lexeme_directiveMarker h).2, (lexeme_directiveMarker h').2]
    · rw [(lexeme_comment h).2, (lexeme_comment h').2]
    · rw [(lexeme_name hc h).2, (lexeme_name hc h').2]
    · rw [(lexeme_indirect h).2, (lexeme_indirect h').2]
    · obtain ⟨s, rfl, _, rfl⟩ := lexeme_string h
      obtain ⟨s', e, _, rfl⟩ := lexeme_string h'
      rw [(List.append_inj' e rfl).1]
    · rw [(lexeme_hex (.inl rfl) h).2.2.2, (lexeme_hex (.inl rfl) h').2.2.2]
    · rw [(lexeme_hex (.inr rfl) h).2.2.2, (lexeme_hex (.inr rfl) h').2.2.2]
    · rcases (lexeme_decimal hc h).2 with ⟨h1, rfl⟩ | ⟨h1, rfl⟩ <;>
        rcases (lexeme_decimal hc h').2 with ⟨h2, rfl⟩ | ⟨h2, rfl⟩ <;> first | rfl | omega
    · rcases (lexeme_binary h).2.2 with ⟨h1, rfl⟩ | ⟨h1, rfl⟩ <;>
        rcases (lexeme_binary h').2.2 with ⟨h2, rfl⟩ | ⟨h2, rfl⟩ <;> first | rfl | omega

/-- No token begins with a blank. -/
theorem lexeme_not_blank {c : Char} {t : Str} {k : Loc → Token} (h : Lexeme bin (c :: t) k) : ¬ Blank c := by
  rcases no_lexeme h with rfl | rfl | rfl | rfl | rfl | hc | rfl | rfl | rfl | rfl | hc | rfl
  all_goals first
    | decide
    | skip
  · rintro ⟨hb, _⟩
    unfold NameStart at hc
    simp only [char_le_iff] at hc
    unfold whiteSpace at hb
    simp only [List.mem_cons, List.not_mem_nil, or_false] at hb
    rcases hc with rfl | hc | hc
    · simp at hb
    · simp at hc
      omega
    · simp at hc
      omega
  · rintro ⟨hb, _⟩
    unfold Decimal at hc
    simp only [char_le_iff] at hc
    unfold whiteSpace at hb
    simp only [List.mem_cons, List.not_mem_nil, or_false] at hb
    simp at hc
    omega

/-- The longest token is unique. -/
theorem longest_unique {s rest s' rest' : Str} {k k' : Loc → Token} (h : Longest bin s rest k)
    (h' : Longest bin s' rest' k') (e : s ++ rest = s' ++ rest') : s = s' ∧ rest = rest' ∧ k = k' := by
  have h1 := h.2 s' rest' k' e.symm h'.1
  have h2 := h'.2 s rest k e h.1
  obtain ⟨rfl, rfl⟩ := List.append_inj e (by omega)
  exact ⟨rfl, rfl, lexeme_unique h.1 h'.1⟩

/-! ### Strings -/

theorem stringBody_unique {s s' r r' : Str} (h : StringBody s) (h' : StringBody s')
    (e : s ++ '"' :: r = s' ++ '"' :: r') : s = s' := by
  induction h generalizing s' with
  | nil =>
    cases h' with
    | nil => rfl
    | plain h1 _ _ =>
      simp at e
      exact (h1 e.1.symm).elim
    | escape _ _ => simp at e
  | plain h1 h2 _ ih =>
    cases h' with
    | nil =>
      simp at e
      exact (h1 e.1).elim
    | plain _ _ h' =>
      simp at e
      rw [e.1, ih h' e.2]
    | escape _ _ =>
      simp at e
      exact (h2 e.1).elim
  | escape h1 _ ih =>
    cases h' with
    | nil => simp at e
    | plain _ h2 _ =>
      simp at e
      exact (h2 e.1.symm).elim
    | escape _ h' =>
      simp at e
      rw [e.1, ih h' e.2]

theorem reStringTail_iff (n : Nat) : ∀ (r : Str), r.length ≤ n → ∀ m, (reStringTail r = some m ↔
    ∃ s r', r = s ++ '"' :: r' ∧ StringBody s ∧ m = byteLen s + 1) := by
  induction n with
  | zero =>
    intro r hr m
    have : r = [] := List.length_eq_zero_iff.1 (by omega)
    subst this
    simp [reStringTail]
  | succ n ih =>
    intro r hr m
    cases r with
    | nil => simp [reStringTail]
    | cons c r =>
      rw [reStringTail.eq_def]
      simp only
      simp only [List.length_cons] at hr
      split
      · rename_i hc
        subst hc
        constructor
        · intro h
          cases h
          exact ⟨[], r, rfl, .nil, rfl⟩
        · rintro ⟨s, r', e, hs, rfl⟩
          have := stringBody_unique .nil hs (r := r) e
          subst this
          rfl
      · rename_i hc
        split
        · rename_i hb
          subst hb
          cases r with
          | nil =>
            simp only [reduceCtorEq, false_iff]
            rintro ⟨s, r', e, hs, _⟩
            cases hs with
            | nil => simp at e
            | plain _ h _ =>
              simp at e
            | escape _ _ => simp at e
          | cons d r =>
            simp only
            simp only [List.length_cons] at hr
            split
            · rename_i hd
              simp only [reduceCtorEq, false_iff]
              rintro ⟨s, r', e, hs, _⟩
              cases hs with
              | nil => simp at e
              | plain _ h _ =>
                simp at e
                exact h e.1.symm
              | escape h _ =>
                simp at e
                exact h (e.1 ▸ hd)
            · rename_i hd
              rw [Option.map_eq_some_iff]
              constructor
              · rintro ⟨a, ha, rfl⟩
                obtain ⟨s, r', rfl, hs, rfl⟩ := (ih r (by omega) a).1 ha
                refine ⟨'\\' :: d :: s, r', rfl, .escape hd hs, ?_⟩
                have : ('\\' : Char).utf8Size = 1 := by decide
                simp only [byteLen_cons, this]
                omega
              · rintro ⟨s, r', e, hs, rfl⟩
                cases hs with
                | nil => simp at e
                | plain _ h _ =>
                  simp at e
                  exact (h e.1.symm).elim
                | @escape c s _ hs =>
                  simp at e
                  obtain ⟨rfl, rfl⟩ := e
                  refine ⟨byteLen s + 1, (ih _ (by omega) _).2 ⟨s, r', rfl, hs, rfl⟩, ?_⟩
                  have : ('\\' : Char).utf8Size = 1 := by decide
                  simp only [byteLen_cons, this]
                  omega
        · rename_i hb
          rw [Option.map_eq_some_iff]
          constructor
          · rintro ⟨a, ha, rfl⟩
            obtain ⟨s, r', rfl, hs, rfl⟩ := (ih r (by omega) a).1 ha
            refine ⟨c :: s, r', rfl, .plain hc hb hs, ?_⟩
            simp only [byteLen_cons]
            omega
          · rintro ⟨s, r', e, hs, rfl⟩
            cases hs with
            | nil =>
              simp at e
              exact (hc e.1).elim
            | @plain c s _ _ hs =>
              simp at e
              obtain ⟨rfl, rfl⟩ := e
              refine ⟨byteLen s + 1, (ih _ (by omega) _).2 ⟨s, r', rfl, hs, rfl⟩, ?_⟩
              simp only [byteLen_cons]
              omega
            | escape _ _ =>
              simp at e
              exact (hb e.1).elim

theorem reString_some {r : Str} {m : Nat} (h : reString ('"' :: r) = some m) :
    ∃ s r', r = s ++ '"' :: r' ∧ StringBody s ∧ m = byteLen s + 2 := by
  simp only [reString, Option.map_eq_some_iff] at h
  obtain ⟨a, ha, rfl⟩ := h
  obtain ⟨s, r', h1, h2, rfl⟩ := (reStringTail_iff _ r (Nat.le_refl _) a).1 ha
  exact ⟨s, r', h1, h2, rfl⟩

theorem reString_none {r : Str} (h : reString ('"' :: r) = none) : ¬ ∃ s r', r = s ++ '"' :: r' ∧ StringBody s := by
  simp only [reString, Option.map_eq_none_iff] at h
  rintro ⟨s, r', h1, h2⟩
  rw [(reStringTail_iff _ r (Nat.le_refl _) _).2 ⟨s, r', h1, h2, rfl⟩] at h
  cases h

end C8S
