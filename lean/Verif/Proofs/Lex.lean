import Verif.Proofs.Lexing

/- The token stream of the scanner is the one of the lexical specification. -/

namespace C8S

open Spec

/-! ### One token -/

/-- The possible outcomes of reading one token of `text`. -/
inductive Step [Target] (s : Scanner) (file before text : Str) : Run (Token × Scanner) → Prop where
  | token {t rest : Str} {k : Loc → Token} : text = t ++ rest → Longest wordBinary t rest k → ¬ IsError k →
    Step s file before text (.ret (k (locate file before t), s.over before t))
  | outOfRange {t rest : Str} {k : Loc → Token} {s' : Scanner} : text = t ++ rest → Longest wordBinary t rest k →
    IsError k → s' = (s.over before t).stopped →
    Step s file before text (.ret (k (locate file before t), s'))
  | malformed {c : Char} {rest : Str} {e : ScanError} : text = c :: rest →
    (∀ t rest' k, t ++ rest' = c :: rest → ¬ Lexeme wordBinary t k) → Malformed c e →
    Step s file before text (.ret (.error e (locate file before [c]), s.stopped))

theorem lex_prefix {bin : Str → Nat} {t rest r : Str} {c : Char} {k : Loc → Token} (e : t ++ rest = c :: r)
    (h : Lexeme bin t k) : ∃ u, t = c :: u ∧ u ++ rest = r := by
  cases t with
  | nil => exact (lexeme_ne_nil h rfl).elim
  | cons d u =>
    simp only [List.cons_append, List.cons.injEq] at e
    exact ⟨u, by rw [e.1], e.2⟩

/-- Only one-character tokens begin with `c`. -/
theorem longest_single {bin : Str → Nat} {c : Char} {r : Str} {k : Loc → Token} (h : Lexeme bin [c] k)
    (hall : ∀ u k', Lexeme bin (c :: u) k' → u = []) : Longest bin [c] r k := by
  refine ⟨h, ?_⟩
  intro t rest k' e h'
  obtain ⟨u, rfl, -⟩ := lex_prefix e h'
  simp [hall u k' h']

/-- All tokens that begin with `c` go on with a run. -/
theorem longest_run {bin : Str → Nat} {c : Char} {r : Str} {p : Char → Bool} {k : Loc → Token}
    (h : Lexeme bin (c :: r.takeWhile p) k)
    (hall : ∀ u k', Lexeme bin (c :: u) k' → ∀ d ∈ u, p d = true) :
    Longest bin (c :: r.takeWhile p) (r.dropWhile p) k := by
  refine ⟨h, ?_⟩
  intro t rest k' e h'
  rw [List.cons_append, ← run_split] at e
  obtain ⟨u, rfl, hu⟩ := lex_prefix e h'
  have := prefix_le_run hu (hall u k' h')
  simp
  exact this

theorem error_not_at {k : Loc → Token} (h : ∀ l e, k l ≠ .error e l) : ¬ IsError k := by
  rintro ⟨e, rfl⟩
  exact h ⟨[], 0, 0, 0⟩ e rfl

/-- Every machine word holds 16 bits. -/
theorem word_wide [target : Target] {n : Nat} (h : n < 2 ^ 16) : n < 2 ^ usizeBits :=
  Nat.lt_of_lt_of_le h (Nat.pow_le_pow_right (by decide) target.wide)

theorem size_quote : ('"' : Char).utf8Size = 1 := by decide
theorem size_dollar : ('$' : Char).utf8Size = 1 := by decide

theorem At.slice_here {s : Scanner} {file before t rest : Str} (h : At s file before (t ++ rest)) :
    C8S.slice s.input s.position (s.position + byteLen t) = .ret t :=
  At.slice (a := []) h

theorem step_newline [Target] {s : Scanner} {file before r : Str} (h : At s file before ('\n' :: r)) :
    Step s file before ('\n' :: r) s.consumeNewline := by
  unfold Scanner.consumeNewline
  rw [h.consumeChar]
  exact .token (t := ['\n']) rfl (longest_single .newline fun u k' h => (lexeme_newline h).1) (error_not_at (by simp))

theorem step_comma [Target] {s : Scanner} {file before r : Str} (h : At s file before (',' :: r)) :
    Step s file before (',' :: r) s.consumeComma := by
  unfold Scanner.consumeComma
  rw [h.consumeChar]
  exact .token (t := [',']) rfl (longest_single .comma fun u k' h => (lexeme_comma h).1) (error_not_at (by simp))

theorem step_labelMarker [Target] {s : Scanner} {file before r : Str} (h : At s file before (':' :: r)) :
    Step s file before (':' :: r) s.consumeLabelMarker := by
  unfold Scanner.consumeLabelMarker
  rw [h.consumeChar]
  exact .token (t := [':']) rfl (longest_single .labelMarker fun u k' h => (lexeme_labelMarker h).1)
    (error_not_at (by simp))

theorem step_directiveMarker [Target] {s : Scanner} {file before r : Str} (h : At s file before ('.' :: r)) :
    Step s file before ('.' :: r) s.consumeDirectiveMarker := by
  unfold Scanner.consumeDirectiveMarker
  rw [h.consumeChar]
  exact .token (t := ['.']) rfl (longest_single .directiveMarker fun u k' h => (lexeme_directiveMarker h).1)
    (error_not_at (by simp))

theorem commentBytes_eq (s : Str) (n : Nat) :
    Scanner.commentBytes s n = n + byteLen (s.takeWhile fun c => decide (c ≠ '\n')) := by
  induction s generalizing n with
  | nil => rfl
  | cons c s ih =>
    rw [Scanner.commentBytes, List.takeWhile_cons]
    split
    · rename_i h
      simp [h]
    · rename_i h
      rw [ih]
      simp [h]
      omega

theorem step_comment [Target] {s : Scanner} {file before r : Str} (h : At s file before (';' :: r)) :
    Step s file before (';' :: r) s.consumeSingleLineComment := by
  unfold Scanner.consumeSingleLineComment
  rw [h.charAt, h.sliceFrom]
  have e : Scanner.commentBytes (';' :: r) 0 = byteLen (';' :: r.takeWhile fun c => decide (c ≠ '\n')) := by
    rw [commentBytes_eq, List.takeWhile_cons]
    simp
  simp only [Run.ret_bind, rustAssert, beq_self_eq_true, if_true, e]
  have split : ';' :: r = (';' :: r.takeWhile fun c => decide (c ≠ '\n')) ++ r.dropWhile fun c => decide (c ≠ '\n') := by
    rw [List.cons_append, ← run_split]
  have h' := h
  rw [split] at h'
  have hs := h'.slice_here
  rw [hs, h'.advanceBy (by simp)]
  refine .token split (longest_run (.comment ?_) ?_) (error_not_at (by simp))
  · intro hm
    have := run_all _ _ _ hm
    simp at this
  · intro u k' hu d hd
    have := (lexeme_comment hu).1
    simp only [decide_eq_true_eq]
    rintro rfl
    exact this hd

theorem step_name [Target] {s : Scanner} {file before r : Str} {c : Char} (hc : NameStart c) (h : At s file before (c :: r)) :
    Step s file before (c :: r) s.consumeIdentifier := by
  unfold Scanner.consumeIdentifier
  rw [h.sliceFrom]
  have e : reIdent (c :: r) = some (byteLen (c :: r.takeWhile isIdentChar)) := by
    rw [reIdent, if_pos ((isIdentStart_iff c).2 hc)]
    simp
  simp only [Run.ret_bind, e]
  have split : c :: r = (c :: r.takeWhile isIdentChar) ++ r.dropWhile isIdentChar := by
    rw [List.cons_append, ← run_split]
  have h' := h
  rw [split] at h'
  have hs := h'.slice_here
  rw [hs, h'.advanceBy (by simp)]
  refine .token split (longest_run (.name hc ?_) ?_) (error_not_at (by simp))
  · intro d hd
    exact (isIdentChar_iff d).1 (run_all _ _ _ hd)
  · intro u k' hu d hd
    exact (isIdentChar_iff d).2 ((lexeme_name hc hu).1 d hd)

theorem step_indirect [Target] {s : Scanner} {file before r : Str} (h : At s file before ('[' :: r)) :
    Step s file before ('[' :: r) s.consumeIndexRegisterIndirect := by
  unfold Scanner.consumeIndexRegisterIndirect
  rw [h.sliceFrom]
  simp only [Run.ret_bind]
  have key : ∀ t rest, '[' :: r = t ++ rest → (t = "[i]".toList ∨ t = "[I]".toList) →
      Step s file before ('[' :: r) (do
        let name ← slice s.input s.position (s.position + byteLen "[i]".toList)
        let (loc, s') ← s.advanceBy (byteLen "[i]".toList)
        return (.identifier name loc, s')) := by
    intro t rest e ht
    have hl : byteLen "[i]".toList = byteLen t := by rcases ht with rfl | rfl <;> decide
    have h' := h
    rw [e] at h'
    have hs := h'.slice_here
    rw [hl, hs, h'.advanceBy (by rcases ht with rfl | rfl <;> decide)]
    refine .token e ⟨?_, ?_⟩ (error_not_at (by simp))
    · rcases ht with rfl | rfl
      · exact .indirect (.inl rfl)
      · exact .indirect (.inr rfl)
    · intro t' rest' k' e' hl'
      obtain ⟨u, rfl, -⟩ := lex_prefix (e'.trans e.symm) hl'
      rcases (lexeme_indirect hl').1 with rfl | rfl <;> rcases ht with rfl | rfl <;> decide
  split
  · rename_i hp
    simp only [Bool.or_eq_true, List.isPrefixOf_iff_prefix] at hp
    rcases hp with ⟨rest, e⟩ | ⟨rest, e⟩
    · exact key _ rest e.symm (.inl rfl)
    · exact key _ rest e.symm (.inr rfl)
  · rename_i hp
    simp only [Bool.or_eq_true, List.isPrefixOf_iff_prefix, not_or] at hp
    rw [h.fail _ '[']
    refine .malformed rfl ?_ .indirect
    intro t rest k e hl
    obtain ⟨u, rfl, -⟩ := lex_prefix e hl
    rcases (lexeme_indirect hl).1 with rfl | rfl
    · exact hp.1 ⟨rest, e⟩
    · exact hp.2 ⟨rest, e⟩

theorem step_string [Target] {s : Scanner} {file before r : Str} (h : At s file before ('"' :: r)) :
    Step s file before ('"' :: r) s.consumeStringLiteral := by
  unfold Scanner.consumeStringLiteral
  rw [h.sliceFrom]
  simp only [Run.ret_bind]
  cases hm : reString ('"' :: r) with
  | none =>
    simp only
    rw [h.fail _ '"']
    refine .malformed rfl ?_ .string
    intro t rest k e hl
    obtain ⟨u, rfl, hu⟩ := lex_prefix e hl
    obtain ⟨b, rfl, hb, -⟩ := lexeme_string hl
    exact reString_none hm ⟨b, rest, by rw [← hu]; simp, hb⟩
  | some n =>
    simp only
    obtain ⟨b, r', rfl, hb, rfl⟩ := reString_some hm
    have split : '"' :: (b ++ '"' :: r') = ('"' :: (b ++ ['"'])) ++ r' := by simp
    have h1 := h
    rw [show '"' :: (b ++ '"' :: r') = ['"'] ++ (b ++ '"' :: r') from rfl] at h1
    have hs := At.slice h1
    simp only [byteLen_cons, byteLen_nil, Nat.add_zero, size_quote] at hs
    rw [size_quote, show s.position + (byteLen b + 2) - 1 = s.position + 1 + byteLen b by omega, hs]
    have h2 := h
    rw [split] at h2
    have ha := h2.advanceBy (by simp)
    rw [show byteLen ('"' :: (b ++ ['"'])) = byteLen b + 2 by simp [size_quote]; omega] at ha
    simp only [Run.ret_bind]
    rw [ha]
    refine .token split ⟨.string hb, ?_⟩ (error_not_at (by simp))
    intro t rest k e hl
    obtain ⟨u, rfl, hu⟩ := lex_prefix (e.trans split.symm) hl
    obtain ⟨b', rfl, hb', -⟩ := lexeme_string hl
    have : b' = b := stringBody_unique hb' hb (r := rest) (r' := r') (by rw [← hu]; simp)
    simp [this]

theorem takeWhile_take_le {p : Char → Bool} (r u rest : Str) (e : u ++ rest = r) (hl : u.length ≤ 3)
    (hu : ∀ d ∈ u, p d = true) : u.length ≤ ((r.take 3).takeWhile p).length := by
  refine prefix_le_run (r := rest.take (3 - u.length)) ?_ hu
  rw [← e, List.take_append, List.take_of_length_le hl]

theorem step_hex [Target] {s : Scanner} {file before r : Str} {c : Char} (hc : c = '$' ∨ c = '#')
    (h : At s file before (c :: r)) : Step s file before (c :: r) s.consumeHexLiteral := by
  unfold Scanner.consumeHexLiteral
  rw [h.sliceFrom]
  simp only [Run.ret_bind, reHex, if_pos hc, matchRun_eq]
  by_cases hn : (r.take 3).takeWhile isHex = []
  · simp only [hn, if_true, Option.map_none]
    rw [h.fail _ c]
    refine .malformed rfl ?_ (.hex hc)
    intro t rest k e hl
    obtain ⟨u, rfl, hu⟩ := lex_prefix e hl
    obtain ⟨h1, h2, h3, -⟩ := lexeme_hex hc hl
    have := takeWhile_take_le r u rest hu h2 (fun d hd => (isHex_iff d).2 (h3 d hd))
    rw [hn] at this
    exact h1 (List.length_eq_zero_iff.1 (by simpa using this))
  · simp only [hn, if_false, Option.map_some]
    generalize hd : (r.take 3).takeWhile isHex = digits at *
    have hall : ∀ d ∈ digits, Hexadecimal d := by
      intro d hm
      rw [← hd] at hm
      exact (isHex_iff d).1 (run_all _ _ _ hm)
    obtain ⟨rest, hrest⟩ : ∃ rest, r = digits ++ rest := by
      refine ⟨(r.take 3).dropWhile isHex ++ r.drop 3, ?_⟩
      rw [← hd, ← List.append_assoc, ← run_split, List.take_append_drop]
    have hlen : digits.length ≤ 3 := by
      have h1 := (List.takeWhile_prefix (l := r.take 3) isHex).length_le
      rw [hd] at h1
      rw [List.length_take] at h1
      omega
    have hc1 : c.utf8Size = 1 := by rcases hc with rfl | rfl <;> decide
    have h1 := h
    rw [hrest, show c :: (digits ++ rest) = [c] ++ (digits ++ rest) from rfl] at h1
    have hs := At.slice h1
    simp only [byteLen_cons, byteLen_nil, Nat.add_zero, hc1] at hs
    rw [size_dollar, show s.position + (byteLen digits + 1) = s.position + 1 + byteLen digits by omega, hs]
    have split : c :: r = (c :: digits) ++ rest := by rw [hrest]; rfl
    have h2 := h
    rw [split] at h2
    have ha := h2.advanceBy (by simp)
    rw [show byteLen (c :: digits) = byteLen digits + 1 by simp [hc1]; omega] at ha
    simp only [Run.ret_bind]
    rw [ha]
    have hlt : positional 16 digits < 2 ^ usizeBits := by
      have h1 := positional_lt 16 digits (fun d hd => digitVal_hex_lt (hall d hd))
      have h2 : 16 ^ digits.length ≤ 16 ^ 3 := Nat.pow_le_pow_right (by omega) hlen
      have h3 : (16 : Nat) ^ 3 < 2 ^ usizeBits := word_wide (by decide)
      omega
    rw [fromStrRadix_eq (by omega) hn (hex_no_plus hall) (fun d hd => toDigit_hexadecimal (hall d hd)), if_pos hlt]
    refine .token split ⟨.hex hc hn hlen hall, ?_⟩ (error_not_at (by simp))
    intro t rest' k e hl
    obtain ⟨u, rfl, hu⟩ := lex_prefix (e.trans split.symm) hl
    obtain ⟨h1, h2, h3, -⟩ := lexeme_hex hc hl
    have := takeWhile_take_le r u rest' hu h2 (fun d hd => (isHex_iff d).2 (h3 d hd))
    rw [hd] at this
    simp
    exact this

theorem step_binary [Target] {s : Scanner} {file before r : Str} (h : At s file before ('%' :: r)) :
    Step s file before ('%' :: r) s.consumeBinLiteral := by
  unfold Scanner.consumeBinLiteral
  rw [h.sliceFrom]
  simp only [Run.ret_bind, reBin, if_true, matchRun_eq]
  by_cases hn : r.takeWhile isBin = []
  · simp only [hn, if_true, Option.map_none]
    rw [h.fail _ '%']
    refine .malformed rfl ?_ .binary
    intro t rest k e hl
    obtain ⟨u, rfl, hu⟩ := lex_prefix e hl
    obtain ⟨h1, h3, -⟩ := lexeme_binary hl
    have := prefix_le_run hu (fun d hd => (isBin_iff d).2 (h3 d hd))
    rw [hn] at this
    exact h1 (List.length_eq_zero_iff.1 (by simpa using this))
  · simp only [hn, if_false, Option.map_some]
    have hall : ∀ d ∈ r.takeWhile isBin, Binary d := fun d hm => (isBin_iff d).1 (run_all _ _ _ hm)
    have hc1 : ('%' : Char).utf8Size = 1 := by decide
    have h1 := h
    rw [run_split isBin r, show ∀ a b : Str, '%' :: (a ++ b) = ['%'] ++ (a ++ b) from fun _ _ => rfl] at h1
    have hs := At.slice h1
    simp only [byteLen_cons, byteLen_nil, Nat.add_zero, hc1] at hs
    rw [size_dollar, show s.position + (byteLen (r.takeWhile isBin) + 1) = s.position + 1 + byteLen (r.takeWhile isBin) by omega, hs]
    have split : '%' :: r = ('%' :: r.takeWhile isBin) ++ r.dropWhile isBin := by
      rw [List.cons_append, ← run_split]
    have h2 := h
    rw [split] at h2
    have ha := h2.advanceBy (by simp)
    rw [show byteLen ('%' :: r.takeWhile isBin) = byteLen (r.takeWhile isBin) + 1 by simp [hc1]; omega] at ha
    simp only [Run.ret_bind]
    rw [ha, parse12_eq hall]
    by_cases hv : wordBinary (r.takeWhile isBin) ≤ 4095
    · simp only [if_pos hv, Run.ret_bind]
      refine .token split (longest_run (.binary hn hall hv) ?_) (error_not_at (by simp))
      exact fun u k' hu d hd => (isBin_iff d).2 ((lexeme_binary hu).2.1 d hd)
    · simp only [if_neg hv, Run.ret_bind]
      refine .outOfRange split (longest_run (.binaryRange hn hall (by omega)) ?_) ⟨_, rfl⟩ rfl
      exact fun u k' hu d hd => (isBin_iff d).2 ((lexeme_binary hu).2.1 d hd)

theorem step_decimal [Target] {s : Scanner} {file before r : Str} {c : Char} (hc : Decimal c) (h : At s file before (c :: r)) :
    Step s file before (c :: r) s.consumeDecimalLiteral := by
  unfold Scanner.consumeDecimalLiteral
  rw [h.sliceFrom]
  have et : (c :: r).takeWhile isDec = c :: r.takeWhile isDec := by
    rw [List.takeWhile_cons, (isDec_iff c).2 hc]
    rfl
  have hall : ∀ d ∈ c :: r.takeWhile isDec, Decimal d := by
    intro d hm
    rw [← et] at hm
    exact (isDec_iff d).1 (run_all _ _ _ hm)
  have hall' : ∀ d ∈ r.takeWhile isDec, Decimal d := fun d hd => hall d (List.mem_cons_of_mem _ hd)
  simp only [Run.ret_bind, reDec, matchRun_eq, et, reduceCtorEq, if_false]
  have split : c :: r = (c :: r.takeWhile isDec) ++ r.dropWhile isDec := by
    rw [List.cons_append, ← run_split]
  have h' := h
  rw [split] at h'
  have hs := h'.slice_here
  rw [hs]
  simp only [Run.ret_bind]
  rw [fromStrRadix_eq (by omega) (by simp) (dec_no_plus hall) (fun d hd => toDigit_decimal (hall d hd)),
    h'.advanceBy (by simp)]
  have hmax : ∀ u k', Lexeme wordBinary (c :: u) k' → ∀ d ∈ u, isDec d = true :=
    fun u k' hu d hd => (isDec_iff d).2 ((lexeme_decimal hc hu).1 d hd)
  by_cases hv : positional 10 (c :: r.takeWhile isDec) ≤ 4095
  · rw [if_pos (Nat.lt_of_le_of_lt hv (word_wide (by decide)))]
    simp only [if_pos hv, Run.ret_bind]
    exact .token split (longest_run (.decimal (by simp) hall hv) hmax) (error_not_at (by simp))
  · have hl := longest_run (r := r) (.decimalRange (by simp) hall (by omega)) hmax
    by_cases hw : positional 10 (c :: r.takeWhile isDec) < 2 ^ usizeBits
    · rw [if_pos hw]
      simp only [if_neg hv, Run.ret_bind]
      exact .outOfRange split hl ⟨_, rfl⟩ rfl
    · rw [if_neg hw]
      simp only [Run.ret_bind]
      exact .outOfRange split hl ⟨_, rfl⟩ rfl

/-- Every non-blank character leads to an outcome of the specification. -/
theorem step_dispatch [Target] {s : Scanner} {file before r : Str} {c : Char} (h : At s file before (c :: r)) :
    Step s file before (c :: r) (s.dispatch c) := by
  unfold Scanner.dispatch
  by_cases e0 : c = ';'
  · rw [if_pos e0]
    subst e0
    exact step_comment h
  rw [if_neg e0]
  by_cases e1 : c = '.'
  · rw [if_pos e1]
    subst e1
    exact step_directiveMarker h
  rw [if_neg e1]
  by_cases e2 : c = ':'
  · rw [if_pos e2]
    subst e2
    exact step_labelMarker h
  rw [if_neg e2]
  by_cases e3 : c = ','
  · rw [if_pos e3]
    subst e3
    exact step_comma h
  rw [if_neg e3]
  by_cases e4 : c = '"'
  · rw [if_pos e4]
    subst e4
    exact step_string h
  rw [if_neg e4]
  by_cases e5 : c = '$'
  · rw [if_pos e5]
    exact step_hex (.inl e5) h
  rw [if_neg e5]
  by_cases e6 : c = '#'
  · rw [if_pos e6]
    exact step_hex (.inr e6) h
  rw [if_neg e6]
  by_cases e7 : c = '%'
  · rw [if_pos e7]
    subst e7
    exact step_binary h
  rw [if_neg e7]
  by_cases e8 : c = '['
  · rw [if_pos e8]
    subst e8
    exact step_indirect h
  rw [if_neg e8]
  by_cases e9 : '0' ≤ c ∧ c ≤ '9'
  · rw [if_pos e9]
    exact step_decimal e9 h
  rw [if_neg e9]
  by_cases e10 : c = '_' ∨ ('a' ≤ c ∧ c ≤ 'z') ∨ ('A' ≤ c ∧ c ≤ 'Z')
  · rw [if_pos e10]
    exact step_name e10 h
  rw [if_neg e10]
  by_cases e11 : c = '\n'
  · rw [if_pos e11]
    subst e11
    exact step_newline h
  rw [if_neg e11]
  rw [h.fail _ c]
  refine .malformed rfl ?_ (.other ?_ ?_ ?_ ?_ ?_)
  · intro t rest k e hl
    obtain ⟨u, rfl, -⟩ := lex_prefix e hl
    rcases no_lexeme hl with h | h | h | h | h | h | h | h | h | h | h | h <;> contradiction
  all_goals assumption

/-! ### All tokens -/

theorem consumeWhitespace_eq {s : Scanner} {file before rest : Str} (h : At s file before rest) :
    ∃ s', s.consumeWhitespace = .ret s' ∧
      At s' file (before ++ rest.takeWhile isBlank) (rest.dropWhile isBlank) := by
  unfold Scanner.consumeWhitespace
  rw [h.sliceFrom]
  simp only [Run.ret_bind, reWhitespace, matchRun_eq]
  have h' := h
  rw [run_split isBlank rest] at h'
  by_cases hn : rest.takeWhile isBlank = []
  · simp only [hn, if_true]
    refine ⟨s, rfl, ?_⟩
    rw [hn, List.nil_append] at h'
    simpa using h'
  · simp only [hn, if_false]
    rw [h'.advanceBy hn]
    exact ⟨_, rfl, h'.over⟩

theorem dropWhile_head {p : Char → Bool} {s r : Str} {c : Char} (h : s.dropWhile p = c :: r) : p c = false := by
  have := List.head?_dropWhile_not (p := p) (l := s)
  rw [h] at this
  simpa using this

theorem nextToken_stopped [Target] {s : Scanner} (h : s.position = byteLen s.input) : s.nextToken = .ret (none, s) := by
  have hs : C8S.sliceFrom s.input s.position = .ret [] := by
    rw [h]
    have := sliceFrom_append s.input []
    rwa [List.append_nil] at this
  have hw : s.consumeWhitespace = .ret s := by
    unfold Scanner.consumeWhitespace
    rw [hs]
    rfl
  unfold Scanner.nextToken
  rw [hw]
  have : s.isAtEnd = true := by simp [Scanner.isAtEnd, h]
  simp [this]

theorem drain_stopped [Target] {s : Scanner} (h : s.position = byteLen s.input) (n : Nat) : drain (n + 1) s = .ret [] := by
  rw [drain, nextToken_stopped h]
  rfl

/-- The scanner yields the tokens of the specification, given enough fuel. -/
theorem drain_lex [Target] (n : Nat) : ∀ {s : Scanner} {file before rest : Str}, At s file before rest → rest.length < n →
    ∃ tokens, drain n s = .ret tokens ∧ Lex wordBinary file before rest tokens := by
  induction n with
  | zero =>
    intro s file before rest h hl
    omega
  | succ n ih =>
    intro s file before rest h hl
    obtain ⟨s1, hw, h1⟩ := consumeWhitespace_eq h
    have hb : ∀ c ∈ rest.takeWhile isBlank, Blank c := fun c hc => (isBlank_iff c).1 (run_all _ _ _ hc)
    have hsplit := run_split isBlank rest
    rw [drain]
    unfold Scanner.nextToken
    rw [hw]
    simp only [Run.ret_bind]
    generalize hblanks : rest.takeWhile isBlank = blanks at *
    cases hd : rest.dropWhile isBlank with
    | nil =>
      rw [hd] at h1 hsplit
      rw [if_pos (h1.isAtEnd.2 rfl)]
      refine ⟨[], rfl, ?_⟩
      rw [hsplit, List.append_nil]
      exact .done hb
    | cons c r =>
      rw [hd] at h1 hsplit
      have hnb : ¬ Blank c := by
        intro hc
        have := dropWhile_head hd
        rw [(isBlank_iff c).2 hc] at this
        cases this
      rw [if_neg (fun hc => by have := h1.isAtEnd.1 hc; cases this), h1.charAt]
      simp only [Run.ret_bind]
      have hstep := step_dispatch h1
      generalize s1.dispatch c = out at hstep
      have hlen : rest.length = blanks.length + (r.length + 1) := by
        rw [hsplit, List.length_append, List.length_cons]
      cases hstep with
      | @token t rest' k he hL hE =>
        have h2 : At (s1.over (before ++ blanks) t) file (before ++ blanks ++ t) rest' := At.over (he ▸ h1)
        have : t.length ≠ 0 := fun h0 => lexeme_ne_nil hL.1 (List.length_eq_zero_iff.1 h0)
        have hl2 : t.length + rest'.length = r.length + 1 := by
          rw [← List.length_append, ← he, List.length_cons]
        obtain ⟨tokens, h3, h4⟩ := ih h2 (by omega)
        simp only [Run.ret_bind, Run.pure_eq, h3]
        refine ⟨_, rfl, ?_⟩
        rw [hsplit, he, ← List.append_assoc]
        exact .token hb hL hE h4
      | @outOfRange t rest' k s' he hL hE hs =>
        have hn : 0 < n := by omega
        have hs : s'.position = byteLen s'.input := by rw [hs]; rfl
        obtain ⟨m, rfl⟩ : ∃ m, n = m + 1 := ⟨n - 1, by omega⟩
        simp only [Run.ret_bind, Run.pure_eq, drain_stopped hs]
        refine ⟨_, rfl, ?_⟩
        rw [hsplit, he, ← List.append_assoc]
        exact .outOfRange hb hL hE
      | @malformed c' r' e he hL hM =>
        obtain ⟨m, rfl⟩ : ∃ m, n = m + 1 := ⟨n - 1, by omega⟩
        simp only [List.cons.injEq] at he
        obtain ⟨rfl, rfl⟩ := he
        have hs : s1.stopped.position = byteLen s1.stopped.input := rfl
        simp only [Run.ret_bind, Run.pure_eq, drain_stopped hs]
        refine ⟨_, rfl, ?_⟩
        rw [hsplit]
        exact .malformed hb hnb hL hM

theorem scan_lex [Target] (file text : Str) : ∃ tokens, scan file text = .ret tokens ∧ Lex wordBinary file [] text tokens :=
  drain_lex _ (at_new file text) (by have := length_le_byteLen text; omega)

end C8S
