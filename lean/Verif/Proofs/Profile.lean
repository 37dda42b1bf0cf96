import Verif.Model.Profile
import Verif.Props.Bounds
import Verif.Props.Tool

/- Lemmas on the tool with the arithmetic of a machine word: without overflow it is the tool of the other files. -/

namespace C8S

open Spec

theorem Profile.addBits_eq (p : Profile) {bits a b : Nat} (h : a + b < 2 ^ bits) : p.addBits bits a b = .ret (a + b) := by
  unfold Profile.addBits
  rw [if_pos h]

theorem Profile.add_eq [Target] (p : Profile) {a b : Nat} (h : a + b < 2 ^ usizeBits) : p.add a b = .ret (a + b) :=
  p.addBits_eq h

theorem Profile.sub_eq [Target] (p : Profile) {a b : Nat} (h : b ≤ a) : p.sub a b = .ret (a - b) := by
  unfold Profile.sub
  rw [if_pos h]

/-! ### Moving the scanner -/

theorem Profile.countBytes_eq [Target] (p : Profile) (s : Str) :
    ∀ acc, acc + byteLen s < 2 ^ usizeBits → p.countBytes s acc = .ret (s.foldl (fun acc x => acc + x.utf8Size) acc) := by
  induction s with
  | nil => exact fun _ _ => rfl
  | cons c s ih =>
    intro acc h
    rw [byteLen_cons] at h
    rw [Profile.countBytes, p.add_eq (by omega), Run.ret_bind, ih _ (by omega)]
    rfl

theorem Profile.advanceLoop_eq [Target] (p : Profile) (s : Str) :
    ∀ n f o, n + s.length < 2 ^ usizeBits → f + s.length < 2 ^ usizeBits → o + s.length < 2 ^ usizeBits →
      p.advanceLoop s (n, f, o) = .ret (Scanner.advanceLoop s (n, f, o)) := by
  induction s with
  | nil => exact fun _ _ _ _ _ _ => rfl
  | cons c s ih =>
    intro n f o hn hf ho
    rw [List.length_cons] at hn hf ho
    rw [Profile.advanceLoop, Scanner.advanceLoop, p.add_eq (by omega), Run.ret_bind]
    have hfirst : (if n = 0 then p.add f 1 else .ret f) = .ret (if n = 0 then f + 1 else f) := by
      by_cases h0 : n = 0
      · rw [if_pos h0, if_pos h0, p.add_eq (by omega)]
      · rw [if_neg h0, if_neg h0]
    have hle : (if n = 0 then f + 1 else f) ≤ f + 1 := by
      by_cases h0 : n = 0
      · rw [if_pos h0]; omega
      · rw [if_neg h0]; omega
    rw [hfirst, Run.ret_bind]
    by_cases hc : c = '\n'
    · simp only [hc, if_true]
      rw [p.add_eq (by omega), Run.ret_bind, ih _ _ _ (by omega) (by omega) (by omega)]
    · simp only [hc, if_false]
      rw [ih _ _ _ (by omega) (by omega) (by omega)]

theorem sliceTo_byteLen (s : Str) : ∀ {n : Nat} {r : Str}, sliceTo s n = .ret r → byteLen r = n := by
  induction s with
  | nil =>
    intro n r h
    cases n with
    | zero => injection h with h; subst h; rfl
    | succ n => exact nomatch h
  | cons c s ih =>
    intro n r h
    cases n with
    | zero => injection h with h; subst h; rfl
    | succ n =>
      rw [sliceTo] at h
      by_cases hc : c.utf8Size ≤ n + 1
      · rw [if_pos hc] at h
        cases hs : sliceTo s (n + 1 - c.utf8Size) with
        | panic => rw [hs] at h; exact nomatch h
        | ret t =>
          rw [hs] at h
          injection h with h
          subst h
          rw [byteLen_cons, ih hs]
          omega
      · rw [if_neg hc] at h; exact nomatch h

theorem slice_byteLen {s r : Str} {a b : Nat} (h : slice s a b = .ret r) : byteLen r = b - a := by
  rw [slice] at h
  by_cases hab : b < a
  · rw [if_pos hab] at h; exact nomatch h
  · rw [if_neg hab] at h
    cases hs : sliceFrom s a with
    | panic => rw [hs] at h; exact nomatch h
    | ret t =>
      rw [hs, Run.ret_bind] at h
      exact sliceTo_byteLen t h

theorem Profile.advanceBy_eq [Target] (p : Profile) (s : Scanner) {n : Nat} (hp : s.position + n < 2 ^ usizeBits)
    (hl : s.currentLine + n < 2 ^ usizeBits) (ho : s.currentLineOffset + n < 2 ^ usizeBits) :
    p.advanceBy s n = s.advanceBy n := by
  unfold Profile.advanceBy Scanner.advanceBy
  rw [p.add_eq hp]
  simp only [Run.ret_bind]
  cases hs : slice s.input s.position (s.position + n) with
  | panic => rfl
  | ret r =>
    have hr := slice_byteLen hs
    have hlen := length_le_byteLen r
    simp only [Run.ret_bind]
    rw [p.countBytes_eq r 0 (by omega), p.advanceLoop_eq r 0 0 _ (by omega) (by omega) (by omega)]
    have hnl : ∀ (r : Str) (a b c : Nat), (Scanner.advanceLoop r (a, b, c)).1 ≤ a + r.length := by
      intro r
      induction r with
      | nil => exact fun _ _ _ => Nat.le_refl _
      | cons x r ih =>
        intro a b c
        rw [Scanner.advanceLoop, List.length_cons]
        by_cases hx : x = '\n'
        · simp only [hx, if_true]
          have := ih (a + 1) (if a = 0 then b + 1 else b) 1
          omega
        · simp only [hx, if_false]
          have := ih a (if a = 0 then b + 1 else b) (c + 1)
          omega
    have := hnl r 0 0 s.currentLineOffset
    generalize Scanner.advanceLoop r (0, 0, s.currentLineOffset) = q at this ⊢
    obtain ⟨nl, first, off⟩ := q
    simp only [Run.ret_bind] at this ⊢
    rw [p.add_eq (a := s.currentLine) (b := nl) (by omega)]
    rfl

/-! ### Texts that fit in memory -/

/-- The scanner stands in a text whose bytes a word can count. -/
structure Fits [Target] (s : Scanner) (file before rest : Str) : Prop where
  at_ : At s file before rest
  small : byteLen before + byteLen rest + 2 < 2 ^ usizeBits

theorem Fits.pos [Target] {s : Scanner} {file before rest : Str} (h : Fits s file before rest) {n : Nat}
    (hn : n ≤ byteLen rest) : s.position + n < 2 ^ usizeBits := by
  have := h.small
  rw [h.at_.position]
  omega

theorem Fits.advanceBy [Target] {s : Scanner} {file before rest : Str} (h : Fits s file before rest) (p : Profile)
    {n : Nat} (hn : n ≤ byteLen rest) : p.advanceBy s n = s.advanceBy n := by
  have h1 := h.small
  have h2 := lines_columns before
  have h3 := length_le_byteLen before
  exact p.advanceBy_eq s (h.pos hn) (by rw [h.at_.line]; omega) (by rw [h.at_.offset]; omega)

theorem Fits.charAt [Target] {s : Scanner} {file before rest : Str} (h : Fits s file before rest) (p : Profile) :
    p.charAt s 0 = s.charAt 0 := by
  rw [Profile.charAt, p.add_eq (h.pos (Nat.zero_le _)), Run.ret_bind]
  rfl

theorem Fits.consumeChar [Target] {s : Scanner} {file before rest : Str} {c : Char} (h : Fits s file before (c :: rest))
    (p : Profile) : p.consumeChar s = s.consumeChar := by
  rw [Profile.consumeChar, Scanner.consumeChar, h.charAt, h.at_.charAt]
  simp only [Run.ret_bind]
  rw [h.advanceBy p (by rw [byteLen_cons]; omega)]

/-! ### Matches are parts of the text -/

theorem byteLen_takeWhile (q : Char → Bool) (s : Str) : byteLen (s.takeWhile q) ≤ byteLen s := by
  have := congrArg byteLen (List.takeWhile_append_dropWhile (p := q) (l := s))
  rw [byteLen_append] at this
  omega

theorem byteLen_take (n : Nat) (s : Str) : byteLen (s.take n) ≤ byteLen s := by
  have := congrArg byteLen (List.take_append_drop n s)
  rw [byteLen_append] at this
  omega

theorem matchRun_le {q : Char → Bool} {s : Str} {n : Nat} (h : matchRun q s = some n) : n ≤ byteLen s := by
  rw [matchRun_eq] at h
  by_cases he : s.takeWhile q = []
  · rw [if_pos he] at h; exact nomatch h
  · rw [if_neg he] at h
    injection h with h
    subst h
    exact byteLen_takeWhile q s

theorem reStringTail_le (k : Nat) : ∀ {s : Str} {n : Nat}, s.length ≤ k → reStringTail s = some n →
    1 ≤ n ∧ n ≤ byteLen s := by
  induction k with
  | zero =>
    intro s n hk h
    cases s with
    | nil => exact nomatch h
    | cons c s => simp at hk
  | succ k ih =>
    intro s n hk h
    cases s with
    | nil => exact nomatch h
    | cons c s =>
      have hpos := Char.utf8Size_pos c
      rw [List.length_cons] at hk
      rw [reStringTail.eq_def] at h
      simp only at h
      by_cases h1 : c = '"'
      · rw [if_pos h1] at h
        injection h with h
        rw [byteLen_cons]
        omega
      · rw [if_neg h1] at h
        by_cases h2 : c = '\\'
        · rw [if_pos h2] at h
          cases s with
          | nil => exact nomatch h
          | cons d s =>
            simp only at h
            by_cases h3 : d = '\n'
            · rw [if_pos h3] at h; exact nomatch h
            · rw [if_neg h3] at h
              cases ht : reStringTail s with
              | none => rw [ht] at h; exact nomatch h
              | some m =>
                rw [ht] at h
                injection h with h
                rw [List.length_cons] at hk
                have := ih (by omega) ht
                rw [byteLen_cons, byteLen_cons]
                simp only at h
                omega
        · rw [if_neg h2] at h
          cases ht : reStringTail s with
          | none => rw [ht] at h; exact nomatch h
          | some m =>
            rw [ht] at h
            injection h with h
            have := ih (by omega) ht
            rw [byteLen_cons]
            simp only at h
            omega

theorem reString_le {s : Str} {n : Nat} (h : reString s = some n) : 1 ≤ n ∧ n ≤ byteLen s := by
  unfold reString at h
  split at h
  · rename_i r
    cases ht : reStringTail r with
    | none => rw [ht] at h; exact nomatch h
    | some m =>
      rw [ht] at h
      injection h with h
      have := reStringTail_le _ (Nat.le_refl _) ht
      have h1 : '"'.utf8Size = 1 := rfl
      rw [byteLen_cons, h1]
      simp only at h
      omega
  · exact nomatch h

theorem reHex_le {s : Str} {n : Nat} (h : reHex s = some n) : n ≤ byteLen s := by
  cases s with
  | nil => exact nomatch h
  | cons c r =>
    have hpos := Char.utf8Size_pos c
    rw [reHex] at h
    by_cases hc : c = '$' ∨ c = '#'
    · rw [if_pos hc] at h
      cases hm : matchRun isHex (r.take 3) with
      | none => rw [hm] at h; exact nomatch h
      | some m =>
        rw [hm] at h
        injection h with h
        have h1 := matchRun_le hm
        have h2 := byteLen_take 3 r
        rw [byteLen_cons]
        simp only at h
        omega
    · rw [if_neg hc] at h; exact nomatch h

theorem reBin_le {s : Str} {n : Nat} (h : reBin s = some n) : n ≤ byteLen s := by
  cases s with
  | nil => exact nomatch h
  | cons c r =>
    have hpos := Char.utf8Size_pos c
    rw [reBin] at h
    by_cases hc : c = '%'
    · rw [if_pos hc] at h
      cases hm : matchRun isBin r with
      | none => rw [hm] at h; exact nomatch h
      | some m =>
        rw [hm] at h
        injection h with h
        have h1 := matchRun_le hm
        rw [byteLen_cons]
        simp only at h
        omega
    · rw [if_neg hc] at h; exact nomatch h

theorem reIdent_le {s : Str} {n : Nat} (h : reIdent s = some n) : n ≤ byteLen s := by
  cases s with
  | nil => exact nomatch h
  | cons c r =>
    rw [reIdent] at h
    by_cases hc : isIdentStart c = true
    · rw [if_pos hc] at h
      injection h with h
      have := byteLen_takeWhile isIdentChar r
      rw [byteLen_cons]
      omega
    · rw [if_neg hc] at h; exact nomatch h

theorem isPrefixOf_byteLen {a s : Str} (h : a.isPrefixOf s = true) : byteLen a ≤ byteLen s := by
  obtain ⟨t, rfl⟩ := List.isPrefixOf_iff_prefix.1 h
  rw [byteLen_append]
  omega

theorem quote_size : '"'.utf8Size = 1 := rfl

theorem dollar_size : '$'.utf8Size = 1 := rfl

/-! ### The methods of the scanner -/

theorem Fits.consumeWhitespace [Target] {s : Scanner} {file before rest : Str} (h : Fits s file before rest)
    (p : Profile) : p.consumeWhitespace s = s.consumeWhitespace := by
  rw [Profile.consumeWhitespace, Scanner.consumeWhitespace, h.at_.sliceFrom]
  simp only [Run.ret_bind]
  cases hm : reWhitespace rest with
  | none => rfl
  | some n =>
    simp only
    rw [h.advanceBy p (matchRun_le hm)]

theorem Fits.consumeStringLiteral [Target] {s : Scanner} {file before rest : Str} (h : Fits s file before rest)
    (p : Profile) : p.consumeStringLiteral s = s.consumeStringLiteral := by
  rw [Profile.consumeStringLiteral, Scanner.consumeStringLiteral, h.at_.sliceFrom]
  simp only [Run.ret_bind]
  cases hm : reString rest with
  | none => rfl
  | some n =>
    have := reString_le hm
    simp only [quote_size]
    rw [h.advanceBy p this.2, p.add_eq (h.pos (n := 1) (by omega)), p.add_eq (h.pos this.2)]
    simp only [Run.ret_bind]
    rw [p.sub_eq (by omega)]
    simp only [Run.ret_bind]

theorem Fits.consumeHexLiteral [Target] {s : Scanner} {file before rest : Str} (h : Fits s file before rest)
    (p : Profile) : p.consumeHexLiteral s = s.consumeHexLiteral := by
  rw [Profile.consumeHexLiteral, Scanner.consumeHexLiteral, h.at_.sliceFrom]
  simp only [Run.ret_bind]
  cases hm : reHex rest with
  | none => rfl
  | some n =>
    have := reHex_le hm
    have hs := h.small
    simp only [dollar_size]
    rw [h.advanceBy p this, p.add_eq (b := 1) (by rw [h.at_.position]; omega), p.add_eq (h.pos this)]
    simp only [Run.ret_bind]

theorem Fits.consumeBinLiteral [Target] {s : Scanner} {file before rest : Str} (h : Fits s file before rest)
    (p : Profile) : p.consumeBinLiteral s = s.consumeBinLiteral := by
  rw [Profile.consumeBinLiteral, Scanner.consumeBinLiteral, h.at_.sliceFrom]
  simp only [Run.ret_bind]
  cases hm : reBin rest with
  | none => rfl
  | some n =>
    have := reBin_le hm
    have hs := h.small
    simp only [dollar_size]
    rw [h.advanceBy p this, p.add_eq (b := 1) (by rw [h.at_.position]; omega), p.add_eq (h.pos this)]
    simp only [Run.ret_bind]
    rfl

theorem Fits.consumeDecimalLiteral [Target] {s : Scanner} {file before rest : Str} (h : Fits s file before rest)
    (p : Profile) : p.consumeDecimalLiteral s = s.consumeDecimalLiteral := by
  rw [Profile.consumeDecimalLiteral, Scanner.consumeDecimalLiteral, h.at_.sliceFrom]
  simp only [Run.ret_bind]
  cases hm : reDec rest with
  | none => rfl
  | some n =>
    have := matchRun_le hm
    simp only
    rw [h.advanceBy p this, p.add_eq (h.pos this)]
    simp only [Run.ret_bind]
    rfl

theorem Fits.consumeIdentifier [Target] {s : Scanner} {file before rest : Str} (h : Fits s file before rest)
    (p : Profile) : p.consumeIdentifier s = s.consumeIdentifier := by
  rw [Profile.consumeIdentifier, Scanner.consumeIdentifier, h.at_.sliceFrom]
  simp only [Run.ret_bind]
  cases hm : reIdent rest with
  | none => rfl
  | some n =>
    have := reIdent_le hm
    simp only
    rw [h.advanceBy p this, p.add_eq (h.pos this)]
    simp only [Run.ret_bind]

theorem Fits.consumeIndexRegisterIndirect [Target] {s : Scanner} {file before rest : Str} (h : Fits s file before rest)
    (p : Profile) : p.consumeIndexRegisterIndirect s = s.consumeIndexRegisterIndirect := by
  rw [Profile.consumeIndexRegisterIndirect, Scanner.consumeIndexRegisterIndirect, h.at_.sliceFrom]
  simp only [Run.ret_bind]
  by_cases hc : ("[i]".toList.isPrefixOf rest || "[I]".toList.isPrefixOf rest) = true
  · rw [if_pos hc, if_pos hc]
    have hle : byteLen "[i]".toList ≤ byteLen rest := by
      rw [Bool.or_eq_true] at hc
      rcases hc with hc | hc
      · exact isPrefixOf_byteLen hc
      · exact isPrefixOf_byteLen (a := "[I]".toList) hc
    rw [h.advanceBy p hle, p.add_eq (h.pos hle)]
    simp only [Run.ret_bind]
  · rw [if_neg hc, if_neg hc]

theorem Profile.commentBytes_eq [Target] (p : Profile) (s : Str) :
    ∀ n, n + byteLen s < 2 ^ usizeBits → p.commentBytes s n = .ret (Scanner.commentBytes s n) := by
  induction s with
  | nil => exact fun _ _ => rfl
  | cons c s ih =>
    intro n h
    rw [byteLen_cons] at h
    rw [Profile.commentBytes, Scanner.commentBytes]
    by_cases hc : c = '\n'
    · rw [if_pos hc, if_pos hc]
    · rw [if_neg hc, if_neg hc, p.add_eq (by omega), Run.ret_bind, ih _ (by omega)]

theorem Fits.consumeSingleLineComment [Target] {s : Scanner} {file before rest : Str} (h : Fits s file before rest)
    (p : Profile) : p.consumeSingleLineComment s = s.consumeSingleLineComment := by
  rw [Profile.consumeSingleLineComment, Scanner.consumeSingleLineComment, h.charAt, h.at_.sliceFrom]
  have hs := h.small
  have hle : Scanner.commentBytes rest 0 ≤ byteLen rest := by
    rw [C8S.commentBytes_eq, Nat.zero_add]
    exact byteLen_takeWhile _ _
  simp only [Run.ret_bind]
  rw [p.commentBytes_eq rest 0 (by omega)]
  simp only [Run.ret_bind]
  rw [h.advanceBy p hle, p.add_eq (h.pos hle)]
  simp only [Run.ret_bind]

theorem Fits.dispatch [Target] {s : Scanner} {file before rest : Str} {c : Char} (h : Fits s file before (c :: rest))
    (p : Profile) (d : Char) : p.dispatch s d = s.dispatch d := by
  unfold Profile.dispatch Scanner.dispatch
  rw [h.consumeSingleLineComment, h.consumeStringLiteral, h.consumeHexLiteral, h.consumeBinLiteral,
    h.consumeIndexRegisterIndirect, h.consumeDecimalLiteral, h.consumeIdentifier]
  have e1 : p.consumeDirectiveMarker s = s.consumeDirectiveMarker := by
    rw [Profile.consumeDirectiveMarker, Scanner.consumeDirectiveMarker, h.consumeChar]
  have e2 : p.consumeLabelMarker s = s.consumeLabelMarker := by
    rw [Profile.consumeLabelMarker, Scanner.consumeLabelMarker, h.consumeChar]
  have e3 : p.consumeComma s = s.consumeComma := by
    rw [Profile.consumeComma, Scanner.consumeComma, h.consumeChar]
  have e4 : p.consumeNewline s = s.consumeNewline := by
    rw [Profile.consumeNewline, Scanner.consumeNewline, h.consumeChar]
  rw [e1, e2, e3, e4]

theorem Fits.nextToken [Target] {s : Scanner} {file before rest : Str} (h : Fits s file before rest) (p : Profile) :
    p.nextToken s = s.nextToken := by
  unfold Profile.nextToken Scanner.nextToken
  rw [h.consumeWhitespace]
  obtain ⟨s1, hw, h1⟩ := consumeWhitespace_eq h.at_
  rw [hw]
  simp only [Run.ret_bind]
  have hsmall := h.small
  have hlen := congrArg byteLen (run_split isBlank rest)
  rw [byteLen_append] at hlen
  cases hd : rest.dropWhile isBlank with
  | nil =>
    rw [hd] at h1
    rw [if_pos (h1.isAtEnd.2 rfl), if_pos (h1.isAtEnd.2 rfl)]
  | cons c r =>
    rw [hd] at h1 hlen
    have hf : Fits s1 file _ (c :: r) := ⟨h1, by rw [byteLen_append]; omega⟩
    rw [hf.charAt, h1.charAt]
    simp only [Run.ret_bind]
    rw [hf.dispatch]

theorem Profile.nextToken_stopped [Target] (p : Profile) {s : Scanner} (h : s.position = byteLen s.input) :
    p.nextToken s = s.nextToken := by
  rw [C8S.nextToken_stopped h]
  have hs : sliceFrom s.input s.position = .ret [] := by
    rw [h]
    have := sliceFrom_append s.input []
    rwa [List.append_nil] at this
  have hw : p.consumeWhitespace s = .ret s := by
    rw [Profile.consumeWhitespace, hs]
    rfl
  rw [Profile.nextToken, hw]
  have : s.isAtEnd = true := by simp [Scanner.isAtEnd, h]
  simp [this]

/-- On a text that fits in memory the next token does not depend on the build. -/
theorem Profile.nextToken_eq [Target] (p : Profile) {file text : Str} {s : Scanner}
    (hsmall : byteLen text + 2 < 2 ^ usizeBits) (h : Visits file text s) : p.nextToken s = s.nextToken := by
  obtain ⟨hb, ⟨before, rest, h⟩ | h⟩ := visits_bounded h
  · have hin : text = before ++ rest := hb.1.symm.trans h.input
    have : Fits s file before rest := ⟨h, by rw [← byteLen_append, ← hin]; exact hsmall⟩
    exact this.nextToken p
  · exact p.nextToken_stopped h

theorem Profile.drain_eq [Target] (p : Profile) {file text : Str} (hsmall : byteLen text + 2 < 2 ^ usizeBits) (n : Nat) :
    ∀ {s : Scanner}, Visits file text s → p.drain n s = C8S.drain n s := by
  induction n with
  | zero => exact fun _ => rfl
  | succ n ih =>
    intro s h
    rw [Profile.drain, C8S.drain, p.nextToken_eq hsmall h]
    cases hn : s.nextToken with
    | panic => rfl
    | ret x =>
      obtain ⟨t, s'⟩ := x
      simp only [Run.ret_bind]
      cases t with
      | none => rfl
      | some t =>
        simp only
        rw [ih (.next h hn)]

theorem Profile.scan_eq [Target] (p : Profile) {file text : Str} (hsmall : byteLen text + 2 < 2 ^ usizeBits) :
    p.scan file text = C8S.scan file text := p.drain_eq hsmall _ .start

/-! ### Messages -/

/-- The last column of the location is a word. -/
def ShownIn [Target] (l : Loc) : Prop := 1 ≤ l.location + l.length ∧ l.location + l.length < 2 ^ usizeBits

theorem Profile.showLoc_eq [Target] (p : Profile) {l : Loc} (h : ShownIn l) : p.showLoc l = .ret l.display := by
  unfold Profile.showLoc Loc.display
  by_cases h1 : l.length = 1
  · rw [if_pos h1, if_pos h1]
  · rw [if_neg h1, if_neg h1, p.add_eq h.2, Run.ret_bind, p.sub_eq h.1]
    rfl

theorem tokens_shown [Target] {file text : Str} {tokens : List Token} (hsmall : byteLen text + 2 < 2 ^ usizeBits)
    (h : scan file text = .ret tokens) : ∀ t ∈ tokens, ShownIn t.location := by
  intro t ht
  have h1 := C86_locations file text tokens h t ht
  have h2 := length_le_byteLen text
  obtain ⟨pieces, tail, hP, hloc⟩ := C04_locations file text tokens h
  obtain ⟨i, hi, rfl⟩ := List.getElem_of_mem ht
  have hi' : i < pieces.length := by rw [hP.count]; exact hi
  have hl := hloc i _ pieces[i] (List.getElem?_eq_getElem hi) (List.getElem?_eq_getElem hi')
  have h3 : tokens[i].location.location = 1 + sinceNewline (textBefore pieces i pieces[i]) := by rw [hl]
  exact ⟨by omega, by omega⟩

theorem Profile.showParseError_eq [Target] (p : Profile) {e : ParseError}
    (h : ∀ names t, e = .unexpectedToken names t → ShownIn t.location) : p.showParseError e = e.display := by
  cases e with
  | unexpectedEndOfFile names => rfl
  | unexpectedToken names t =>
    have hs := h names t rfl
    cases t with
    | error reason location =>
      have hl : p.showLoc location = .ret location.display := p.showLoc_eq hs
      rw [Profile.showParseError, hl]
      rfl
    | _ =>
      rw [Profile.showParseError, p.showLoc_eq hs]
      · rfl
      · exact fun _ _ h => nomatch h

/-- Where a semantic error is. -/
def errorPlace : SemanticError → Loc
  | .directiveInvalid l _ | .directiveTooLarge l _ | .directiveWouldOverflow l _ | .instructionWouldOverflow l
  | .redefinitionOfLabel l _ | .assemblyFailed l _ | .constantWithoutLabel l => l

theorem Profile.showSemanticError_eq [Target] (p : Profile) {e : SemanticError} (h : ShownIn (errorPlace e)) :
    p.showSemanticError e = .ret e.display := by
  have hl := p.showLoc_eq h
  cases e <;> (simp only [errorPlace] at hl; rw [Profile.showSemanticError, hl]; rfl)

theorem error_place {nodes : List Node} (hr : FourBitProgram nodes) {e : SemanticError}
    (h : assemble nodes = .ret (.error e)) : ∃ n ∈ nodes, errorPlace e = nodeLocation n := by
  rcases (assemble_error_iff hr).1 h with ⟨pre, n, post, rfl, _, hf⟩ |
    ⟨labels, pre, loc, m, fields, post, reason, _, _, rfl, _, _, rfl⟩
  · refine ⟨n, by simp, ?_⟩
    cases hf <;> rfl
  · exact ⟨.instruction loc m fields, by simp, rfl⟩

/-! ### Data ranges -/

theorem Profile.bytesRemaining_eq [Target] (p : Profile) {r : DataRange} (h : InMemory r) :
    p.bytesRemaining r = r.bytesRemaining := by
  have hb : 2 ^ 16 ≤ 2 ^ usizeBits := Nat.pow_le_pow_right (by omega) Target.wide
  have h1 := r.startAddress.isLt
  unfold InMemory rangeEnd memorySize at h
  unfold Profile.bytesRemaining DataRange.bytesRemaining DataRange.len
  simp only
  rw [p.add_eq (by omega), Run.ret_bind, p.sub_eq (by omega), if_pos (by omega)]

theorem Profile.append_eq [Target] (p : Profile) {r : DataRange} (h : InMemory r) (data : List U8) :
    p.append r data = r.append data := by
  unfold Profile.append DataRange.append
  rw [p.bytesRemaining_eq h]

theorem Profile.appendAsserted_eq [Target] (p : Profile) {r : DataRange} (h : InMemory r) (bytes : List U8) :
    p.appendAsserted r bytes = C8S.appendAsserted r bytes := by
  unfold Profile.appendAsserted C8S.appendAsserted
  rw [p.append_eq h]
  rfl

theorem appendAsserted_inMemory {r r' : DataRange} (h : InMemory r) {bytes : List U8}
    (ha : appendAsserted r bytes = .ret r') : InMemory r' := by
  unfold appendAsserted at ha
  rw [C8S.append_eq h] at ha
  by_cases hc : rangeEnd r + bytes.length ≤ memorySize
  · rw [if_pos hc] at ha
    injection ha with ha
    subst ha
    unfold InMemory rangeEnd at *
    simp only [List.length_append]
    omega
  · rw [if_neg hc] at ha
    exact nomatch ha

theorem new_inMemory (a : U12) : InMemory (DataRange.new a) := by
  have := a.isLt
  unfold InMemory rangeEnd memorySize DataRange.new
  simp only [List.length_nil]
  omega

theorem Profile.emitLoop_eq [Target] (p : Profile) (labels : LabelMap) (nodes : List Node) :
    ∀ current ranges, InMemory current → p.emitLoop nodes labels current ranges = C8S.emitLoop nodes labels current ranges := by
  induction nodes with
  | nil => exact fun _ _ _ => rfl
  | cons n nodes ih =>
    intro current ranges h
    cases n with
    | label l name =>
      rw [Profile.emitLoop, C8S.emitLoop]
      exact ih current ranges h
    | directive l name args =>
      rw [Profile.emitLoop.eq_def, C8S.emitLoop.eq_def]
      simp only
      cases Directive.fromIdentifierAndParameters name args with
      | error e => rfl
      | ok d =>
        have go : ∀ bytes, (match p.appendAsserted current bytes with
            | .panic => Run.panic
            | .ret current => p.emitLoop nodes labels current ranges) =
          (match C8S.appendAsserted current bytes with
            | .panic => Run.panic
            | .ret current => C8S.emitLoop nodes labels current ranges) := by
          intro bytes
          rw [p.appendAsserted_eq h]
          cases ha : C8S.appendAsserted current bytes with
          | panic => rfl
          | ret r => exact ih r ranges (appendAsserted_inMemory h ha)
        cases d with
        | org a => exact ih _ _ (new_inMemory a)
        | db bytes => exact go _
        | equ v => exact go _
    | instruction l m fields =>
      rw [Profile.emitLoop, C8S.emitLoop]
      cases Instruction.fromMnemonicAndParameters m fields labels with
      | error e => rfl
      | ok i =>
        simp only
        cases Instruction.intoVec i with
        | panic => rfl
        | ret bytes =>
          simp only
          rw [p.appendAsserted_eq h]
          cases ha : C8S.appendAsserted current bytes with
          | panic => rfl
          | ret r => exact ih r ranges (appendAsserted_inMemory h ha)

theorem Profile.assemble_eq [Target] (p : Profile) (nodes : List Node) : p.assemble nodes = C8S.assemble nodes := by
  unfold Profile.assemble C8S.assemble emitDataRanges
  cases defineLabels nodes with
  | error e => rfl
  | ok labels => exact p.emitLoop_eq labels nodes _ _ (new_inMemory 0)

theorem Profile.overlapLoop_eq [Target] (p : Profile) (ranges : List DataRange) (is : List Nat)
    (h : ∀ i ∈ is, i + 1 < 2 ^ usizeBits) :
    p.overlapLoop ranges is = .ret (is.flatMap fun i =>
      (List.range' (i + 1) (ranges.length - (i + 1))).filterMap fun j =>
        match ranges[i]?, ranges[j]? with
        | some lhs, some rhs => if lhs.intersects rhs then some (lhs, rhs) else none
        | _, _ => none) := by
  induction is with
  | nil => rfl
  | cons i is ih =>
    rw [Profile.overlapLoop, p.add_eq (h i List.mem_cons_self), Run.ret_bind,
      ih fun j hj => h j (List.mem_cons_of_mem _ hj), Run.ret_bind, List.flatMap_cons]
    rfl

theorem Profile.findOverlappingRanges_eq [Target] (p : Profile) {ranges : List DataRange}
    (h : ranges.length < 2 ^ usizeBits) : p.findOverlappingRanges ranges = .ret (C8S.findOverlappingRanges ranges) := by
  unfold Profile.findOverlappingRanges
  rw [p.overlapLoop_eq ranges _ fun i hi => by have := List.mem_range.1 hi; omega]
  rfl

theorem Profile.showRange_eq [Target] (p : Profile) {r : DataRange} (h : r.addressRange.2.toNat ≠ 0) :
    p.showRange r = r.display := by
  unfold Profile.showRange DataRange.display
  simp only
  rw [p.sub_eq (by omega), Run.ret_bind, if_neg h]
  rfl

theorem Profile.overlapReports_eq [Target] (p : Profile) (program : Str) {pairs : List (DataRange × DataRange)}
    (h : ∀ q ∈ pairs, q.1.addressRange.2.toNat ≠ 0 ∧ q.2.addressRange.2.toNat ≠ 0) :
    p.overlapReports program pairs = C8S.overlapReports program pairs := by
  induction pairs with
  | nil => rfl
  | cons q pairs ih =>
    obtain ⟨a, b⟩ := q
    have h1 := h (a, b) List.mem_cons_self
    rw [Profile.overlapReports, C8S.overlapReports, p.showRange_eq h1.1, p.showRange_eq h1.2,
      ih fun q hq => h q (List.mem_cons_of_mem _ hq)]

/-! ### Object file -/

theorem Profile.recordsOfChunks_eq (p : Profile) (chunks : List (List U8)) :
    ∀ {a : Nat} {records : List Record}, C8S.recordsOfChunks chunks a = .ret records →
      p.recordsOfChunks chunks a = .ret records := by
  induction chunks with
  | nil => exact fun h => h
  | cons c chunks ih =>
    intro a records h
    rw [C8S.recordsOfChunks] at h
    by_cases hc : a + c.length < 2 ^ 16
    · rw [if_pos hc] at h
      cases hr : C8S.recordsOfChunks chunks (a + c.length) with
      | panic => rw [hr] at h; exact nomatch h
      | ret more =>
        rw [hr] at h
        rw [Profile.recordsOfChunks, p.addBits_eq hc, Run.ret_bind, ih hr, Run.ret_bind]
        exact h
    · rw [if_neg hc] at h
      exact nomatch h

theorem Profile.recordsOfRanges_eq (p : Profile) (ranges : List DataRange) :
    ∀ {records : List Record}, C8S.recordsOfRanges ranges = .ret records → p.recordsOfRanges ranges = .ret records := by
  induction ranges with
  | nil => exact fun h => h
  | cons r ranges ih =>
    intro records h
    rw [C8S.recordsOfRanges] at h
    cases h1 : C8S.recordsOfChunks (chunksOf 16 r.data.length r.data) r.addressRange.1.toNat with
    | panic => rw [h1] at h; exact nomatch h
    | ret first =>
      rw [h1] at h
      simp only at h
      cases h2 : C8S.recordsOfRanges ranges with
      | panic => rw [h2] at h; exact nomatch h
      | ret more =>
        rw [h2] at h
        rw [Profile.recordsOfRanges, p.recordsOfChunks_eq _ h1, Run.ret_bind, ih h2, Run.ret_bind]
        exact h

theorem Profile.ihex_eq [Target] (p : Profile) {ranges : List DataRange} (hb : ∀ r ∈ ranges, Built r)
    (hl : ranges.length < 2 ^ usizeBits) :
    p.ihexRepresentationOfDataRanges ranges = C8S.ihexRepresentationOfDataRanges ranges := by
  unfold Profile.ihexRepresentationOfDataRanges
  rw [p.findOverlappingRanges_eq hl, Run.ret_bind]
  by_cases hov : C8S.findOverlappingRanges ranges = []
  · obtain ⟨text, ht, _⟩ := C42_decodes ranges hb hov
    unfold C8S.ihexRepresentationOfDataRanges at ht ⊢
    cases hr : C8S.recordsOfRanges ranges with
    | panic =>
      simp [hov, rustAssert, hr] at ht
    | ret records => rw [p.recordsOfRanges_eq _ hr]
  · unfold C8S.ihexRepresentationOfDataRanges
    have : (C8S.findOverlappingRanges ranges).length ≠ 0 := fun h => hov (List.length_eq_zero_iff.1 h)
    simp [rustAssert, this]

/-! ### Tool -/

theorem ranges_le_bytes {ranges : List DataRange} (h : ∀ r ∈ ranges, r.data ≠ []) :
    ranges.length ≤ (image ranges).length := by
  induction ranges with
  | nil => exact Nat.le_refl _
  | cons r rs ih =>
    have h1 := ih fun q hq => h q (List.mem_cons_of_mem _ hq)
    have h2 : 0 < r.data.length := List.length_pos_iff.2 (h r List.mem_cons_self)
    simp only [image, List.flatMap_cons, List.length_append, List.length_cons, placeAt_length] at h1 ⊢
    omega

theorem Profile.assembleText_eq [Target] (p : Profile) (env : Env) (program input output : Str) {text : Str}
    (hsmall : byteLen text + 2 < 2 ^ usizeBits) :
    p.assembleText env program input output text = C8S.assembleText env program input output text := by
  unfold Profile.assembleText C8S.assembleText
  rw [p.scan_eq hsmall]
  cases hs : C8S.scan input text with
  | panic => rfl
  | ret tokens =>
    simp only
    cases hp : parse tokens with
    | panic => rfl
    | ret q =>
      cases q with
      | error e =>
        simp only
        have : ∀ names t, e = .unexpectedToken names t → ShownIn t.location := by
          rintro names t rfl
          obtain ⟨pre, post, rfl, _⟩ := C15_token tokens names t hp
          exact tokens_shown hsmall hs t (by simp)
        rw [p.showParseError_eq this]
        rfl
      | ok nodes =>
        simp only
        have hprog := (parse_ok_iff _ _).1 hp
        rw [p.assemble_eq]
        cases ha : C8S.assemble nodes with
        | panic => rfl
        | ret q =>
          cases q with
          | error e =>
            simp only
            obtain ⟨n, hn, hloc⟩ := error_place (program_registers hprog) ha
            obtain ⟨name, hm⟩ := program_location hprog n hn
            have : ShownIn (errorPlace e) := by
              rw [hloc]
              exact tokens_shown hsmall hs _ hm
            rw [p.showSemanticError_eq this]
          | ok ranges =>
            simp only
            have hb := ranges_bound ha
            have h1 := C86_output input text _ ((describes_iff _ _ _).2 ⟨tokens, nodes, ranges, hs, hp, ha, rfl⟩)
            rw [utf8_length] at h1
            have h2 := ranges_le_bytes fun r hr => (hb r hr).1
            have hlen : ranges.length < 2 ^ usizeBits := by omega
            rw [p.findOverlappingRanges_eq hlen]
            have hends : ∀ r ∈ ranges, r.addressRange.2.toNat ≠ 0 := by
              intro r hr
              have h3 := addressRange_end_of_lt (r := r) (by have := (hb r hr).2; omega)
              have h4 : 0 < r.data.length := List.length_pos_iff.2 (hb r hr).1
              have h5 : rangeEnd r = r.startAddress.toNat + r.data.length := rfl
              rw [h3]
              omega
            have hpairs : ∀ q ∈ C8S.findOverlappingRanges ranges,
                q.1.addressRange.2.toNat ≠ 0 ∧ q.2.addressRange.2.toNat ≠ 0 := by
              rintro ⟨a, b⟩ hq
              obtain ⟨i, j, _, hi, hj, _⟩ := (C40_mem ranges a b).1 hq
              exact ⟨hends a (List.mem_of_getElem? hi), hends b (List.mem_of_getElem? hj)⟩
            have hbuilt : ∀ r ∈ ranges, Built r := by
              intro r hr
              refine (C38_built_iff_inMemory r).2 ?_
              have := (hb r hr).2
              simp only [InMemory, memorySize]
              omega
            simp only
            rw [p.overlapReports_eq program hpairs, p.ihex_eq hbuilt hlen]
            rfl

theorem Profile.main_eq [Target] (p : Profile) (getopts : Getopts) (env : Env) (arguments : List Str)
    (h : ∀ path text, env.readInput path = .ok text → byteLen text + 2 < 2 ^ usizeBits) :
    p.main getopts env arguments = C8S.main getopts env arguments := by
  have hf : ∀ program input output, p.assembleFile env program input output = C8S.assembleFile env program input output := by
    intro program input output
    unfold Profile.assembleFile C8S.assembleFile
    cases env.openInput input with
    | error e => rfl
    | ok u =>
      cases u
      simp only
      cases hr : env.readInput input with
      | error e => rfl
      | ok text =>
        simp only
        rw [p.assembleText_eq env program input output (h input text hr)]
  unfold Profile.main C8S.main
  cases arguments with
  | nil => rfl
  | cons program rest =>
    simp only [hf]
    rfl

end C8S
