import Verif.Proofs.Lines

/- Properties of the scanner: C01 to C09 and C53. -/

namespace C8S

open Spec

/-- C01: tokenising returns: it neither panics nor runs forever, and yields at most one token per character. -/
theorem C01_total [Target] (file text : Str) : ∃ tokens, scan file text = .ret tokens ∧ tokens.length ≤ text.length := by
  obtain ⟨ts, h1, h2⟩ := scan_lex file text
  obtain ⟨pieces, tail, hP, _⟩ := lex_pieces h2
  exact ⟨ts, h1, pieces_length hP⟩

/-- A text with an error at its end. -/
theorem scan_sample : scan "f".toList "v0 \t,é".toList =
    .ret [.identifier "v0".toList ⟨"f".toList, 1, 1, 2⟩, .comma ⟨"f".toList, 1, 5, 1⟩,
      .error (.invalidCharacter 'é') ⟨"f".toList, 1, 6, 1⟩] := by decide +kernel

/-- C01, C08: any number of calls of `next` returns: first the tokens, and from then on nothing. -/
theorem C08_fused [Target] (file text : Str) (tokens : List Token) (h : scan file text = .ret tokens) (n : Nat) :
    answers n (Scanner.new file text) = .ret ((tokens.map some ++ List.replicate n none).take n) :=
  answers_drain n _ _ _ (.inl ⟨_, _, _, at_new file text⟩) h

example : answers 5 (Scanner.new "f".toList "a b".toList) =
    .ret [some (.identifier "a".toList ⟨"f".toList, 1, 1, 1⟩), some (.identifier "b".toList ⟨"f".toList, 1, 3, 1⟩),
      none, none, none] := by decide +kernel

/-- C02: the text is made of the pieces of text of its tokens, in order, separated by blanks only; what remains after
the last token is blank unless an error was reported. -/
theorem C02_pieces [Target] (file text : Str) (tokens : List Token) (h : scan file text = .ret tokens) :
    ∃ pieces tail, Pieces text tokens pieces tail := by
  obtain ⟨pieces, tail, hP, _⟩ := lex_pieces ((scan_iff_lex _ _ _).1 h)
  exact ⟨pieces, tail, hP⟩

example : ∃ pieces tail, Pieces "v0 \t,é".toList
    [.identifier "v0".toList ⟨"f".toList, 1, 1, 2⟩, .comma ⟨"f".toList, 1, 5, 1⟩,
      .error (.invalidCharacter 'é') ⟨"f".toList, 1, 6, 1⟩] pieces tail :=
  C02_pieces _ _ _ scan_sample

/-- C03: the tokens of a text are those given by the lexical grammar with the longest token taken each time. Binary
digits are read modulo the machine word. -/
theorem C03_grammar [Target] (file text : Str) (tokens : List Token) :
    scan file text = .ret tokens ↔ Lex wordBinary file [] text tokens :=
  scan_iff_lex file text tokens

example : Lex wordBinary "f".toList [] "v0 \t,é".toList
    [.identifier "v0".toList ⟨"f".toList, 1, 1, 2⟩, .comma ⟨"f".toList, 1, 5, 1⟩,
      .error (.invalidCharacter 'é') ⟨"f".toList, 1, 6, 1⟩] :=
  (C03_grammar _ _ _).1 scan_sample

/-- C03: every text has exactly one token sequence in the lexical grammar. -/
theorem C03_determined [Target] (file text : Str) :
    ∃ tokens, Lex wordBinary file [] text tokens ∧ ∀ tokens', Lex wordBinary file [] text tokens' → tokens' = tokens := by
  obtain ⟨ts, _, h⟩ := scan_lex file text
  exact ⟨ts, h, fun ts' h' => lex_unique h' h⟩

example (tokens : List Token) (h : Lex wordBinary "f".toList [] "v0 \t,é".toList tokens) : tokens.length = 3 := by
  have h' := (C03_grammar _ _ _).2 h
  rw [scan_sample] at h'
  cases h'
  rfl

/-- C03: with the intended reading of binary digits, for texts whose binary literals fit the machine word. -/
theorem C03_intended [Target] (file text : Str) (hs : SmallBinaries text) (tokens : List Token) :
    scan file text = .ret tokens ↔ Lex trueBinary file [] text tokens := by
  rw [scan_iff_lex]
  exact ⟨lex_agree (agree_of_small hs), lex_agree (agree_of_small hs).symm⟩

example : SmallBinaries "ld v0, 3 ; x".toList := by
  intro b s r e _
  have : '%' ∈ "ld v0, 3 ; x".toList := by rw [e]; simp
  exact absurd this (by decide)

/-- C04: each token carries the location of its piece of text: line, column and length on the first line. -/
theorem C04_locations [Target] (file text : Str) (tokens : List Token) (h : scan file text = .ret tokens) :
    ∃ pieces tail, Pieces text tokens pieces tail ∧
      ∀ (i : Nat) (t : Token) (p : Str × Str), tokens[i]? = some t → pieces[i]? = some p →
        t.location = ⟨file, 1 + newlines (textBefore pieces i p), 1 + sinceNewline (textBefore pieces i p),
          firstLine p.2⟩ := by
  obtain ⟨pieces, tail, hP, hloc, _⟩ := lex_pieces ((scan_iff_lex _ _ _).1 h)
  exact ⟨pieces, tail, hP, fun i t p ht hp => by simpa [locate] using hloc i t p ht hp⟩

/-- The location of a name on the second line. -/
example : scan "f".toList "cls\n jp\n".toList = .ret [.identifier "cls".toList ⟨"f".toList, 1, 1, 3⟩,
      .newline ⟨"f".toList, 1, 4, 1⟩, .identifier "jp".toList ⟨"f".toList, 2, 2, 2⟩, .newline ⟨"f".toList, 2, 4, 1⟩] ∧
    newlines "cls\n ".toList = 1 ∧ sinceNewline "cls\n ".toList = 1 ∧ firstLine "jp".toList = 2 := by decide +kernel

/-- C04: all numbers of a location are positive. -/
theorem C04_positive [Target] (file text : Str) (tokens : List Token) (h : scan file text = .ret tokens) :
    ∀ t ∈ tokens, 1 ≤ t.location.line ∧ 1 ≤ t.location.location ∧ 1 ≤ t.location.length := by
  intro t ht
  obtain ⟨pieces, tail, hP, hloc⟩ := C04_locations file text tokens h
  obtain ⟨i, hi, rfl⟩ := List.getElem_of_mem ht
  have hi' : i < pieces.length := by rw [hP.count]; exact hi
  have e := hloc i _ pieces[i] (List.getElem?_eq_getElem hi) (List.getElem?_eq_getElem hi')
  rw [e]
  have := firstLine_pos (hP.nonempty pieces[i] (List.getElem_mem hi'))
  exact ⟨by simp, by simp, this⟩

example : 1 ≤ (Token.comma ⟨"f".toList, 1, 5, 1⟩).location.location :=
  (C04_positive _ _ _ scan_sample _ (by simp)).2.1

/-- C05: every numeric token fits in 12 bits. -/
theorem C05_range [Target] (file text : Str) (tokens : List Token) (h : scan file text = .ret tokens) (v : Nat) (l : Loc)
    (hm : .numericLiteral v l ∈ tokens) : v ≤ 4095 :=
  lex_numeric_mem ((scan_iff_lex _ _ _).1 h) hm

example : scan "f".toList "4095 $FFF".toList =
    .ret [.numericLiteral 4095 ⟨"f".toList, 1, 1, 4⟩, .numericLiteral 4095 ⟨"f".toList, 1, 6, 4⟩] := by decide +kernel

/-- C05: every numeric token carries the value of the number written in the text (for binary literals that fit the
machine word). -/
theorem C05_value [Target] (file text : Str) (hs : SmallBinaries text) (tokens : List Token) (h : scan file text = .ret tokens) :
    ∃ pieces tail, Pieces text tokens pieces tail ∧
      ∀ (i v : Nat) (l : Loc) (p : Str × Str), tokens[i]? = some (.numericLiteral v l) → pieces[i]? = some p →
        v = numeralValue p.2 := by
  obtain ⟨pieces, tail, hP, _, hval⟩ := lex_pieces ((C03_intended file text hs tokens).1 h)
  exact ⟨pieces, tail, hP, fun i v l p ht hp => by rw [(hval i v l p ht hp).1, valueWith_true]⟩

example : scan "f".toList "$fF #10 12 %1.1".toList =
    .ret [.numericLiteral 255 ⟨"f".toList, 1, 1, 3⟩, .numericLiteral 16 ⟨"f".toList, 1, 5, 3⟩,
      .numericLiteral 12 ⟨"f".toList, 1, 9, 2⟩, .numericLiteral 5 ⟨"f".toList, 1, 12, 4⟩] := by decide +kernel

/-- C08: a lexical error is the last token. -/
theorem C08_error_last [Target] (file text : Str) (tokens pre post : List Token) (e : ScanError) (l : Loc)
    (h : scan file text = .ret tokens) (ht : tokens = pre ++ .error e l :: post) : post = [] :=
  lex_error_last ((scan_iff_lex _ _ _).1 h) ht

example (post : List Token) (h : [.identifier "v0".toList ⟨"f".toList, 1, 1, 2⟩, .comma ⟨"f".toList, 1, 5, 1⟩,
      .error (.invalidCharacter 'é') ⟨"f".toList, 1, 6, 1⟩] =
      [.identifier "v0".toList ⟨"f".toList, 1, 1, 2⟩, .comma ⟨"f".toList, 1, 5, 1⟩] ++
        .error (.invalidCharacter 'é') ⟨"f".toList, 1, 6, 1⟩ :: post) : post = [] :=
  C08_error_last _ _ _ _ _ _ _ scan_sample h

/-- C08: at most one lexical error is reported. -/
theorem C08_error_once [Target] (file text : Str) (tokens : List Token) (h : scan file text = .ret tokens) (i j : Nat)
    (e e' : ScanError) (l l' : Loc) (hi : tokens[i]? = some (.error e l)) (hj : tokens[j]? = some (.error e' l')) :
    i = j := by
  have key : ∀ (i : Nat) (e : ScanError) (l : Loc), tokens[i]? = some (.error e l) → i + 1 = tokens.length := by
    intro i e l hi
    obtain ⟨hlt, hget⟩ := List.getElem?_eq_some_iff.1 hi
    have split : tokens = tokens.take i ++ .error e l :: tokens.drop (i + 1) := by
      rw [← hget, List.getElem_cons_drop, List.take_append_drop]
    have := C08_error_last file text tokens _ _ e l h split
    have := congrArg List.length this
    simp at this
    omega
  have h1 := key i e l hi
  have h2 := key j e' l' hj
  omega

example (j : Nat) (e : ScanError) (l : Loc) (hj : ([.identifier "v0".toList ⟨"f".toList, 1, 1, 2⟩, .comma ⟨"f".toList, 1, 5, 1⟩,
      .error (.invalidCharacter 'é') ⟨"f".toList, 1, 6, 1⟩] : List Token)[j]? = some (.error e l)) : 2 = j :=
  C08_error_once _ _ _ scan_sample 2 j _ e _ l rfl hj

/-- C09: every string token holds characters without a quote that is not escaped. -/
theorem C09_string_body [Target] (file text : Str) (tokens : List Token) (h : scan file text = .ret tokens) (b : Str) (l : Loc)
    (hm : .stringLiteral b l ∈ tokens) : StringBody b :=
  lex_string_mem ((scan_iff_lex _ _ _).1 h) hm

example : StringBody "a".toList :=
  C09_string_body "f".toList ".db \"a\"".toList [.directiveMarker ⟨"f".toList, 1, 1, 1⟩, .identifier "db".toList ⟨"f".toList, 1, 2, 2⟩,
    .stringLiteral "a".toList ⟨"f".toList, 1, 5, 3⟩] (by decide +kernel) _ ⟨"f".toList, 1, 5, 3⟩ (by simp)

/-- C09: every comment token starts with a semicolon and has no newline. -/
theorem C09_comment_body [Target] (file text : Str) (tokens : List Token) (h : scan file text = .ret tokens) (b : Str) (l : Loc)
    (hm : .singleLineComment b l ∈ tokens) : ∃ s, b = ';' :: s ∧ '\n' ∉ s :=
  lex_comment_mem ((scan_iff_lex _ _ _).1 h) hm

example : StringBody "a\\\"; b".toList :=
  .plain (by decide) (by decide) (.escape (by decide) (.plain (by decide) (by decide) (.plain (by decide) (by decide)
    (.plain (by decide) (by decide) .nil))))

example : scan "f".toList "\"a\\\"; b\";x".toList =
    .ret [.stringLiteral "a\\\"; b".toList ⟨"f".toList, 1, 1, 8⟩, .singleLineComment ";x".toList ⟨"f".toList, 1, 9, 2⟩] := by
  decide +kernel

example : scan "f".toList "\n\"a\\\"".toList =
    .ret [.newline ⟨"f".toList, 1, 1, 1⟩, .error .invalidStringLiteral ⟨"f".toList, 2, 1, 1⟩] := by decide +kernel

/-- C53: whole lines without lexical errors are tokenised independently of what follows, and what follows is tokenised
as if it stood alone, further down. -/
theorem C53_lines [Target] (file pre rest : Str) (tokens more : List Token) (hp : WholeLines pre) (h : scan file pre = .ret tokens)
    (hc : NoLexError tokens) (h' : scan file rest = .ret more) :
    scan file (pre ++ rest) = .ret (tokens ++ more.map (down (newlines pre))) :=
  scan_lines hp h hc h'

example : scan "f".toList ("cls\n".toList ++ "jp".toList) =
    .ret ([.identifier "cls".toList ⟨"f".toList, 1, 1, 3⟩, .newline ⟨"f".toList, 1, 4, 1⟩] ++
      [.identifier "jp".toList ⟨"f".toList, 2, 1, 2⟩]) :=
  C53_lines "f".toList "cls\n".toList "jp".toList _ [.identifier "jp".toList ⟨"f".toList, 1, 1, 2⟩] (.inr ⟨"cls".toList, rfl⟩)
    (by decide +kernel) (by simp [NoLexError]) (by decide +kernel)

/-- Identifiers are made of ASCII letters, digits and underscores, or are `[i]` or `[I]`. (Justifies the modelling of
`to_lowercase`.) -/
theorem scan_identifier_ascii [Target] (file text : Str) (tokens : List Token) (h : scan file text = .ret tokens) (n : Str) (l : Loc)
    (hm : .identifier n l ∈ tokens) : ∀ c ∈ n, c.toNat < 128 := by
  have hname : ∀ c, NameChar c → c.toNat < 128 := by
    intro c hc
    unfold NameChar NameStart Decimal at hc
    simp only [char_le_iff] at hc
    rcases hc with (rfl | hc | hc) | hc
    · decide
    · have := hc.2; simp at this; omega
    · have := hc.2; simp at this; omega
    · have := hc.2; simp at this; omega
  intro c hcm
  rcases lex_identifier_mem ((scan_iff_lex _ _ _).1 h) hm with ⟨d, s, rfl, h1, h2⟩ | rfl | rfl
  · simp only [List.mem_cons] at hcm
    rcases hcm with rfl | hcm
    · exact hname c (.inl h1)
    · exact hname c (h2 c hcm)
  · revert c; decide
  · revert c; decide

end C8S
