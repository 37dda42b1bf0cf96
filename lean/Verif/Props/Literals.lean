import Verif.Proofs.Place
import Verif.Props.Scanner

/- Properties of literals and comments anywhere in a text: C06, C07 and C09. -/

namespace C8S

open Spec

theorem special {rest : Str} (c : Char) (hc : ¬ (NameChar c ∨ c = '.')) :
    ∀ d r, c :: rest = d :: r → ¬ (NameChar d ∨ d = '.') := by
  intro d r e
  injection e with e _
  exact e ▸ hc

/-- C05: anywhere but within a comment, `$` or `#` and one to three hexadecimal digits are a number with this value;
a fourth digit is not part of it. -/
theorem C05_hexadecimal [Target] (file pre digits rest : Str) (tokens : List Token) (c : Char) (hc : c = '$' ∨ c = '#')
    (h : scan file pre = .ret tokens) (ha : Apart tokens) (hne : digits ≠ []) (hd : ∀ d ∈ digits, Hexadecimal d)
    (hl : digits.length ≤ 3) (hr : ∀ d r, rest = d :: r → digits.length = 3 ∨ ¬ Hexadecimal d) :
    ∃ more, scan file (pre ++ (c :: digits ++ rest)) =
      .ret (tokens ++ .numericLiteral (positional 16 digits) (locate file pre (c :: digits)) :: more) := by
  obtain ⟨more, hm⟩ := lex_exists file (pre ++ c :: digits) rest
  have hL : Longest wordBinary (c :: digits) rest (.numericLiteral (positional 16 digits)) := by
    rw [longest_iff]
    refine ⟨.hex hc hne hl hd, ?_⟩
    rintro d r e ⟨k, hk⟩
    have := lexeme_hex hc (t := digits ++ [d]) hk
    rcases hr d r e with h3 | h3
    · have := this.2.1
      simp at this
      omega
    · exact h3 (this.2.2.1 d (by simp))
  refine ⟨more, lex_here h ha (special c ?_) (blankless hL (error_not_at (by simp)) hm)⟩
  rcases hc with rfl | rfl <;> decide

example : scan [] "ld i,".toList = .ret [.identifier "ld".toList ⟨[], 1, 1, 2⟩, .identifier "i".toList ⟨[], 1, 4, 1⟩,
      .comma ⟨[], 1, 5, 1⟩] ∧
    Apart [.identifier "ld".toList ⟨[], 1, 1, 2⟩, .identifier "i".toList ⟨[], 1, 4, 1⟩, .comma ⟨[], 1, 5, 1⟩] ∧
    ¬ EndsInWord "ld i,".toList ∧ (∀ d ∈ "fF0".toList, Hexadecimal d) ∧ positional 16 "fF0".toList = 0xFF0 := by
  refine ⟨by decide +kernel, ⟨by simp [NoLexError], ?_⟩, ?_, by decide, by decide⟩
  · rintro t ht ⟨s, l, rfl⟩
    simp at ht
  · rintro ⟨p, c, e, hc⟩
    have : c = ',' := by simpa using (congrArg List.getLast? e).symm
    subst this
    exact absurd hc (by decide)

/-- Whole lines without a lexical error are a text after which any token may follow: the hypotheses below hold at the
start of every line. -/
theorem C09_at_line_start [Target] (file pre : Str) (tokens : List Token) (hp : WholeLines pre) (h : scan file pre = .ret tokens)
    (hn : NoLexError tokens) : Apart tokens ∧ ¬ EndsInWord pre :=
  apart_lines hp h hn

example : WholeLines "cls\n".toList ∧
    scan [] "cls\n".toList = .ret [.identifier "cls".toList ⟨[], 1, 1, 3⟩, .newline ⟨[], 1, 4, 1⟩] ∧
    NoLexError [.identifier "cls".toList ⟨[], 1, 1, 3⟩, .newline ⟨[], 1, 4, 1⟩] :=
  ⟨.inr ⟨"cls".toList, rfl⟩, by decide +kernel, by simp [NoLexError]⟩

/-- C06: anywhere in a text, but not within a comment or right after a word, a decimal number above 4095 is reported
with its text and ends the tokens, however long it is. -/
theorem C06_rejected [Target] (file pre digits rest : Str) (tokens : List Token)
    (h : scan file pre = .ret tokens) (ha : Apart tokens) (hw : ¬ EndsInWord pre) (hne : digits ≠ [])
    (hd : ∀ d ∈ digits, Decimal d)
    (hr : ∀ d r, rest = d :: r → ¬ Decimal d) (hv : 4095 < positional 10 digits) :
    scan file (pre ++ (digits ++ rest)) =
      .ret (tokens ++ [.error (.decimalLiteralOutOfRange digits) (locate file pre digits)]) :=
  lex_there h ha hw (blankless_error (longest_decimal (.decimalRange hne hd hv) hne hd hr) ⟨_, rfl⟩)

example (file : Str) : scan file "4096 x".toList =
    .ret [.error (.decimalLiteralOutOfRange "4096".toList) ⟨file, 1, 1, 4⟩] :=
  C06_rejected file [] "4096".toList " x".toList [] ((scan_iff_lex _ _ _).2 (.done (by simp))) ⟨by simp [NoLexError], by simp⟩ (by rintro ⟨p, c, h, _⟩; simp at h)
    (by decide) (by decide) (by rintro d r h; cases h; decide) (by decide)

/-- C06: and one up to 4095 is accepted. -/
theorem C06_accepted [Target] (file pre digits rest : Str) (tokens : List Token)
    (h : scan file pre = .ret tokens) (ha : Apart tokens) (hw : ¬ EndsInWord pre) (hne : digits ≠ [])
    (hd : ∀ d ∈ digits, Decimal d)
    (hr : ∀ d r, rest = d :: r → ¬ Decimal d) (hv : positional 10 digits ≤ 4095) :
    ∃ more, scan file (pre ++ (digits ++ rest)) =
      .ret (tokens ++ .numericLiteral (positional 10 digits) (locate file pre digits) :: more) := by
  obtain ⟨more, hm⟩ := lex_exists file (pre ++ digits) rest
  exact ⟨more, lex_there h ha hw (blankless (longest_decimal (.decimal hne hd hv) hne hd hr) (error_not_at (by simp)) hm)⟩

example : (∀ d ∈ "99999999999999999999999".toList, Decimal d) ∧ 4095 < positional 10 "99999999999999999999999".toList ∧
    scan [] "ld i,99999999999999999999999 x".toList = .ret [.identifier "ld".toList ⟨[], 1, 1, 2⟩,
      .identifier "i".toList ⟨[], 1, 4, 1⟩, .comma ⟨[], 1, 5, 1⟩,
      .error (.decimalLiteralOutOfRange "99999999999999999999999".toList) ⟨[], 1, 6, 23⟩] :=
  ⟨by decide, by decide, by decide +kernel⟩

/-- C07: anywhere but within a comment, a binary number whose value modulo the machine word is above 4095 is
reported. -/
theorem C07_rejected [Target] (file pre digits rest : Str) (tokens : List Token)
    (h : scan file pre = .ret tokens) (ha : Apart tokens) (hne : digits ≠ []) (hd : ∀ d ∈ digits, Binary d)
    (hr : ∀ d r, rest = d :: r → ¬ Binary d) (hv : 4095 < positional 2 digits % 2 ^ usizeBits) :
    scan file (pre ++ ('%' :: digits ++ rest)) =
      .ret (tokens ++ [.error (.binaryLiteralOutOfRange digits) (locate file pre ('%' :: digits))]) :=
  lex_here h ha (special _ (by decide)) (blankless_error (longest_binary (.binaryRange hne hd hv) hr) ⟨_, rfl⟩)

example (file : Str) : scan file "%1.......1.... x".toList =
    .ret [.error (.binaryLiteralOutOfRange "1.......1....".toList) ⟨file, 1, 1, 14⟩] :=
  C07_rejected file [] "1.......1....".toList " x".toList [] ((scan_iff_lex _ _ _).2 (.done (by simp)))
    ⟨by simp [NoLexError], by simp⟩ (by decide) (by decide) (by rintro d r h; cases h; decide) (by decide)

/-- C07: the others are accepted, with their value modulo the machine word. -/
theorem C07_accepted [Target] (file pre digits rest : Str) (tokens : List Token)
    (h : scan file pre = .ret tokens) (ha : Apart tokens) (hne : digits ≠ []) (hd : ∀ d ∈ digits, Binary d)
    (hr : ∀ d r, rest = d :: r → ¬ Binary d) (hv : positional 2 digits % 2 ^ usizeBits ≤ 4095) :
    ∃ more, scan file (pre ++ ('%' :: digits ++ rest)) =
      .ret (tokens ++ .numericLiteral (positional 2 digits % 2 ^ usizeBits) (locate file pre ('%' :: digits)) :: more) := by
  obtain ⟨more, hm⟩ := lex_exists file (pre ++ '%' :: digits) rest
  exact ⟨more, lex_here h ha (special _ (by decide)) (blankless (longest_binary (.binary hne hd hv) hr) (error_not_at (by simp)) hm)⟩

example : ∃ more, scan [] "%0101.1x".toList = .ret (.numericLiteral 21 ⟨[], 1, 1, 7⟩ :: more) := ⟨_, rfl⟩

/-- C07, restricted to at most as many digits as the machine word has (64 or 32): a binary number above 4095 is rejected.
Missing: longer literals, of which the code only keeps the last 64 or 32 digits (see `C07_claim_false`). -/
theorem C07_rejected_partial [Target] (file pre digits rest : Str) (tokens : List Token)
    (h : scan file pre = .ret tokens) (ha : Apart tokens) (hd : ∀ d ∈ digits, Binary d)
    (hr : ∀ d r, rest = d :: r → ¬ Binary d) (hl : digits.length ≤ usizeBits) (hv : 4095 < positional 2 digits) :
    scan file (pre ++ ('%' :: digits ++ rest)) =
      .ret (tokens ++ [.error (.binaryLiteralOutOfRange digits) (locate file pre ('%' :: digits))]) := by
  refine C07_rejected file pre digits rest tokens h ha ?_ hd hr ?_
  · rintro rfl
    simp [positional] at hv
  · have h1 : positional 2 digits < 2 ^ digits.length := positional_lt 2 digits (fun d hd' => by
      rcases hd d hd' with rfl | rfl | rfl <;> decide)
    have h2 : 2 ^ digits.length ≤ 2 ^ usizeBits := Nat.pow_le_pow_right (by omega) hl
    rw [Nat.mod_eq_of_lt (by omega)]
    exact hv

theorem foldl_zeros (n acc : Nat) :
    (List.replicate n '0').foldl (fun acc c => acc * 2 + digitVal c) acc = acc * 2 ^ n := by
  induction n generalizing acc with
  | zero => simp
  | succ n ih =>
    rw [List.replicate_succ, List.foldl_cons, ih, show digitVal '0' = 0 from rfl, Nat.add_zero, Nat.pow_succ, Nat.mul_assoc,
      Nat.mul_comm 2]

/-- C07 is false of the code, on every machine: a one and as many zeros as the machine word has digits are worth 2^64 or
2^32, and are accepted as 0. -/
theorem C07_claim_false [target : Target] :
    (∀ d ∈ '1' :: List.replicate usizeBits '0', Binary d) ∧
    positional 2 ('1' :: List.replicate usizeBits '0') = 2 ^ usizeBits ∧
    scan "f".toList ('%' :: '1' :: List.replicate usizeBits '0') =
      .ret [.numericLiteral 0 ⟨"f".toList, 1, 1, usizeBits + 2⟩] := by
  have h1 : ∀ d ∈ '1' :: List.replicate usizeBits '0', Binary d := by
    intro d hd
    rcases List.mem_cons.1 hd with rfl | hd
    · exact .inr (.inr rfl)
    · rw [(List.mem_replicate.1 hd).2]
      exact .inl rfl
  have h2 : positional 2 ('1' :: List.replicate usizeBits '0') = 2 ^ usizeBits := by
    rw [positional, List.foldl_cons, foldl_zeros]
    exact Nat.one_mul _
  refine ⟨h1, h2, ?_⟩
  have hw : wordBinary ('1' :: List.replicate usizeBits '0') = 0 := by
    rw [wordBinary, h2, Nat.mod_self]
  have := Spec.Lex.token (bin := wordBinary) (file := "f".toList) (before := []) (blanks := []) (rest := []) (tokens := [])
    (by simp) (longest_binary (.binary (by simp) h1 (by rw [hw]; decide)) (by simp)) (error_not_at (by simp)) (.done (by simp))
  rw [(scan_iff_lex _ _ _).2 (by simpa using this), hw]
  have hf : ∀ n, firstLine (List.replicate n '0') = n := by
    intro n
    induction n with
    | zero => rfl
    | succ n ih =>
      rw [List.replicate_succ, firstLine, if_neg (by decide), ih]
  simp [locate, newlines, sinceNewline, firstLine, hf]

/-- On a 64-bit machine. -/
example : scan "f".toList ('%' :: '1' :: List.replicate 64 '0') = .ret [.numericLiteral 0 ⟨"f".toList, 1, 1, 66⟩] :=
  C07_claim_false.2.2

example : (∀ d ∈ "1000000000000".toList, Binary d) ∧ "1000000000000".toList.length ≤ 64 ∧
    4095 < positional 2 "1000000000000".toList ∧ scan [] [] = .ret [] ∧ Apart [] :=
  ⟨by decide, by decide, by decide, by decide +kernel, by simp [NoLexError], by simp⟩

/-- C09: anywhere but within a comment, a closed string gives a token with the characters between the quotes, whatever
follows. -/
theorem C09_string [Target] (file pre body rest : Str) (tokens : List Token)
    (h : scan file pre = .ret tokens) (ha : Apart tokens) (hb : StringBody body) :
    ∃ more, scan file (pre ++ ('"' :: (body ++ ['"']) ++ rest)) =
      .ret (tokens ++ .stringLiteral body (locate file pre ('"' :: (body ++ ['"']))) :: more) := by
  obtain ⟨more, hm⟩ := lex_exists file (pre ++ '"' :: (body ++ ['"'])) rest
  exact ⟨more, lex_here h ha (special _ (by decide)) (blankless (longest_string hb) (error_not_at (by simp)) hm)⟩

example : scan [] "\"a\\\"b\" x".toList = .ret [.stringLiteral "a\\\"b".toList ⟨[], 1, 1, 6⟩, .identifier "x".toList ⟨[], 1, 8, 1⟩] := by
  decide +kernel

/-- C09: a string that is never closed is an error. -/
theorem C09_unclosed [Target] (file pre rest : Str) (tokens : List Token)
    (h : scan file pre = .ret tokens) (ha : Apart tokens) (hb : ¬ ∃ body more, rest = body ++ '"' :: more ∧ StringBody body) :
    scan file (pre ++ '"' :: rest) = .ret (tokens ++ [.error .invalidStringLiteral (locate file pre ['"'])]) := by
  refine lex_here h ha (special _ (by decide)) ?_
  have := Spec.Lex.malformed (bin := wordBinary) (file := file) (before := pre) (blanks := []) (rest := rest) (c := '"')
    (by simp) (by decide) ?_ .string
  · simpa using this
  · intro s rest' k e hl
    obtain ⟨u, rfl, hu⟩ := lex_prefix e hl
    obtain ⟨b, rfl, hb', _⟩ := lexeme_string hl
    exact hb ⟨b, rest', by rw [← hu]; simp, hb'⟩

example : scan [] "cls\n\"a\\\"".toList = .ret [.identifier "cls".toList ⟨[], 1, 1, 3⟩, .newline ⟨[], 1, 4, 1⟩,
    .error .invalidStringLiteral ⟨[], 2, 1, 1⟩] := by decide +kernel

/-- C09: a comment is the text from the semicolon up to the newline or the end. -/
theorem C09_comment [Target] (file pre body rest : Str) (tokens : List Token)
    (h : scan file pre = .ret tokens) (ha : Apart tokens) (hb : '\n' ∉ body) (hr : ∀ d r, rest = d :: r → d = '\n') :
    ∃ more, scan file (pre ++ (';' :: body ++ rest)) =
      .ret (tokens ++ .singleLineComment (';' :: body) (locate file pre (';' :: body)) :: more) := by
  obtain ⟨more, hm⟩ := lex_exists file (pre ++ ';' :: body) rest
  exact ⟨more, lex_here h ha (special _ (by decide)) (blankless (longest_comment hb hr) (error_not_at (by simp)) hm)⟩

example : scan [] "cls;a\n".toList = .ret [.identifier "cls".toList ⟨[], 1, 1, 3⟩,
    .singleLineComment ";a".toList ⟨[], 1, 4, 2⟩, .newline ⟨[], 1, 6, 1⟩] := by decide +kernel

end C8S
