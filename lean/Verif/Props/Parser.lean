import Verif.Proofs.Blanks

/- Properties of the parser, C10 to C12, C14 (on tokens), C15 and C54. -/

namespace C8S

open Spec

namespace ParserExample

def l0 : Loc := ⟨"f".toList, 1, 1, 1⟩

/-- `a: .db 1, <newline> ld v3, x <comment>` -/
def sample : List Token :=
  [.identifier "a".toList l0, .labelMarker l0, .directiveMarker l0, .identifier "db".toList l0, .numericLiteral 1 l0,
    .comma l0, .newline l0, .identifier "ld".toList l0, .identifier "v3".toList l0, .comma l0, .identifier "x".toList l0,
    .singleLineComment ";c".toList l0]

def sampleNodes : List Node :=
  [.label l0 "a".toList, .directive l0 "db".toList [.numeric 1],
    .instruction l0 "ld".toList [.generalPurposeRegister 3, .identifier "x".toList]]

theorem sample_program : Program sample sampleNodes := by
  refine .label (.directive (args := [.numericLiteral 1 l0, .comma l0]) (isOpen := true) (.more .numeric .empty)
    (fun _ => ⟨_, _, rfl, l0, rfl⟩) (.blank (.inl ⟨l0, rfl⟩) (.instruction (isOpen := false)
      (args := [.identifier "v3".toList l0, .comma l0, .identifier "x".toList l0]) (.more (.name ?_) (.one (.name ?_)))
      (by simp) (.blank (.inr ⟨_, _, rfl⟩) .empty))))
  · exact .register (.general (.inl rfl) (by decide))
  · refine .label ?_
    intro f h
    generalize hx : ("x".toList : Str) = x at h
    cases h with
    | special hm =>
      subst hx
      simp [specialNames] at hm
    | general => cases hx

end ParserExample

open ParserExample

/-- C10: parsing any token sequence ends and does not panic. -/
theorem C10_total (tokens : List Token) : ∃ out, parse tokens = .ret out := by
  obtain ⟨out, _, h⟩ := outcome_exists tokens
  exact ⟨out, h⟩

example : parse [.comma l0, .comma l0] =
    .ret (.error (.unexpectedToken ["directive marker".toList, "identifier".toList] (.comma l0))) := rfl

/-- C11: the parser yields these statements exactly when the tokens are a program of these statements. -/
theorem C11_grammar (tokens : List Token) (ns : List Node) : parse tokens = .ret (.ok ns) ↔ Program tokens ns :=
  parse_ok_iff tokens ns

example : Program sample sampleNodes ∧ parse sample = .ret (.ok sampleNodes) :=
  ⟨sample_program, (C11_grammar _ _).2 sample_program⟩

/-- C11: the grammar is not ambiguous. -/
theorem C11_unique (tokens : List Token) (ns ns' : List Node) (h : Program tokens ns) (h' : Program tokens ns') : ns = ns' :=
  program_unique h h'

example (ns : List Node) (h : Program sample ns) : ns = sampleNodes := C11_unique _ _ _ h sample_program

/-- C11: the parser reports an error exactly when the tokens are no program. -/
theorem C11_rejects (tokens : List Token) : (∃ e, parse tokens = .ret (.error e)) ↔ ¬ ∃ ns, Program tokens ns := by
  constructor
  · rintro ⟨e, h⟩ ⟨ns, hp⟩
    rw [(parse_ok_iff _ _).2 hp] at h
    cases h
  · intro h
    obtain ⟨out, ho⟩ := C10_total tokens
    cases out with
    | ok ns => exact (h ⟨ns, (parse_ok_iff _ _).1 ho⟩).elim
    | error e => exact ⟨e, ho⟩

example : parse sample = .ret (.ok sampleNodes) := (C11_grammar _ _).2 sample_program

/-- An open argument list at the end of the file is no program. -/
example : parse [.directiveMarker l0, .identifier "db".toList l0] =
    .ret (.error (.unexpectedEndOfFile ["numeric literal".toList, "string literal".toList])) := rfl

/-- C12: tokens with a lexical error among them are never accepted. -/
theorem C12_error (tokens : List Token) (e : ScanError) (l : Loc) (h : .error e l ∈ tokens) :
    ∃ err, parse tokens = .ret (.error err) := by
  refine (C11_rejects tokens).2 ?_
  rintro ⟨ns, hp⟩
  exact program_no_error hp e l h

example : ∃ err, parse (sample ++ [.error .invalidStringLiteral l0]) = .ret (.error err) :=
  C12_error _ .invalidStringLiteral l0 (by simp)

/-- C15: an error at a token is at the first token after which no program is possible. -/
theorem C15_token (tokens : List Token) (names : List Str) (t : Token)
    (h : parse tokens = .ret (.error (.unexpectedToken names t))) :
    ∃ pre post, tokens = pre ++ t :: post ∧ Completable pre ∧ ¬ Completable (pre ++ [t]) ∧ names ≠ [] := by
  obtain ⟨pre, ⟨⟨post, hpost⟩, hno⟩, ⟨ext, ns, hok⟩, hne, _⟩ := outcome_error ((parse_iff _ _).1 h) rfl
  refine ⟨pre, post, hpost, ⟨ext, ns, (parse_ok_iff _ _).1 ((parse_iff _ _).2 hok)⟩, ?_, hne⟩
  rintro ⟨ext', ns', hp⟩
  rw [List.append_assoc] at hp
  have h1 := (parse_iff _ _).2 (hno ext')
  have h2 := (parse_ok_iff _ _).2 hp
  simp only [List.singleton_append] at h2
  rw [h1] at h2
  cases h2

example : ∃ pre post, [.identifier "cls".toList l0, .newline l0, .comma l0, .newline l0] = pre ++ .comma l0 :: post ∧
    Completable pre ∧ ¬ Completable (pre ++ [.comma l0]) ∧ ["directive marker".toList, "identifier".toList] ≠ [] :=
  C15_token _ _ _ rfl

/-- C15: an error at the end of the file is reported only if the file could be continued to a program. -/
theorem C15_end (tokens : List Token) (names : List Str)
    (h : parse tokens = .ret (.error (.unexpectedEndOfFile names))) :
    Completable tokens ∧ (¬ ∃ ns, Program tokens ns) ∧ names ≠ [] := by
  obtain ⟨pre, rfl, ⟨ext, ns, hok⟩, hne, _⟩ := outcome_error ((parse_iff _ _).1 h) rfl
  refine ⟨⟨ext, ns, (parse_ok_iff _ _).1 ((parse_iff _ _).2 hok)⟩, ?_, hne⟩
  exact (C11_rejects _).1 ⟨_, h⟩

/-- A directive that may have arguments yet. -/
example : Completable [.directiveMarker l0, .identifier "db".toList l0] :=
  (C15_end _ ["numeric literal".toList, "string literal".toList] rfl).1

/-- C15: the error does not depend on what follows the offending token. -/
theorem C15_prefix (pre post post' : List Token) (names : List Str) (t : Token) (hpre : Completable pre)
    (h : parse (pre ++ t :: post) = .ret (.error (.unexpectedToken names t))) (ht : ¬ Completable (pre ++ [t])) :
    parse (pre ++ t :: post') = .ret (.error (.unexpectedToken names t)) := by
  obtain ⟨p, ⟨⟨q, hq⟩, hno⟩, ⟨ext, ns, hok⟩, _, _⟩ := outcome_error ((parse_iff _ _).1 h) rfl
  have hp : Completable p := ⟨ext, ns, (parse_ok_iff _ _).1 ((parse_iff _ _).2 hok)⟩
  have hpt : ¬ Completable (p ++ [t]) := by
    rintro ⟨ext', ns', hp⟩
    rw [List.append_assoc] at hp
    have h1 := (parse_iff _ _).2 (hno ext')
    have h2 := (parse_ok_iff _ _).2 hp
    simp only [List.singleton_append] at h2
    rw [h1] at h2
    cases h2
  have heq : p = pre := (first_bad_unique hq hpre ht hp hpt).symm
  subst heq
  exact (parse_iff _ _).2 (hno post')

example : parse [.identifier "cls".toList l0, .newline l0, .comma l0, .newline l0] =
    .ret (.error (.unexpectedToken ["directive marker".toList, "identifier".toList] (.comma l0))) := rfl

/-- C54: a token of a kind that an error names as expected would have been taken in this place, whichever it is, and the
offending token is of none of these kinds. -/
theorem C54_expected (tokens : List Token) (e : ParseError) (h : parse tokens = .ret (.error e)) :
    match e with
    | .unexpectedToken names t => ∃ pre post, tokens = pre ++ t :: post ∧ Completable pre ∧ ¬ Completable (pre ++ [t]) ∧
        ∀ name ∈ names, (∃ tok, Expected name tok) ∧ (∀ tok, Expected name tok → Completable (pre ++ [tok])) ∧ ¬ Expected name t
    | .unexpectedEndOfFile names =>
        ∀ name ∈ names, (∃ tok, Expected name tok) ∧ ∀ tok, Expected name tok → Completable (tokens ++ [tok]) := by
  have hc : ∀ {pre : List Token} {tok : Token}, (∃ ext ns, ParseOutcome (pre ++ tok :: ext) (.ok ns)) →
      Completable (pre ++ [tok]) := by
    rintro pre tok ⟨ext, ns, h2⟩
    refine ⟨ext, ns, ?_⟩
    rw [List.append_assoc]
    exact (parse_ok_iff _ _).1 ((parse_iff _ _).2 h2)
  have h' := (parse_iff _ _).1 h
  have h := outcome_error h' rfl
  cases e with
  | unexpectedToken names t =>
    obtain ⟨pre, ⟨⟨post, hpost⟩, hno⟩, ⟨ext, ns, hok⟩, _, hv, _⟩ := h
    refine ⟨pre, post, hpost, ⟨ext, ns, (parse_ok_iff _ _).1 ((parse_iff _ _).2 hok)⟩, ?_, fun name hn =>
      ⟨(hv name hn).1, fun tok ht => hc ((hv name hn).2 tok ht), outcome_not_expected h' rfl name hn⟩⟩
    rintro ⟨ext', ns', hp⟩
    rw [List.append_assoc] at hp
    have h1 := (parse_iff _ _).2 (hno ext')
    have h2 := (parse_ok_iff _ _).2 hp
    simp only [List.singleton_append] at h2
    rw [h1] at h2
    cases h2
  | unexpectedEndOfFile names =>
    obtain ⟨pre, rfl, _, _, hv, _⟩ := h
    exact fun name hn => ⟨(hv name hn).1, fun tok ht => hc ((hv name hn).2 tok ht)⟩

example : parse [.identifier "ld".toList l0, .numericLiteral 1 l0, .comma l0, .labelMarker l0] =
    .ret (.error (.unexpectedToken ["instruction field".toList] (.labelMarker l0))) := rfl

/-- C54: nothing is left out: in place of the offending token, every token that is not of a kind named as expected gives
the same report for that token, unless it is a newline, a comment, a comma or a label marker. -/
theorem C54_complete (tokens : List Token) (e : ParseError) (h : parse tokens = .ret (.error e)) :
    match e with
    | .unexpectedToken names t => ∃ pre post, tokens = pre ++ t :: post ∧ Completable pre ∧ ¬ Completable (pre ++ [t]) ∧
        ∀ tok post', ¬ Separates tok → (∀ name ∈ names, ¬ Expected name tok) →
          parse (pre ++ tok :: post') = .ret (.error (.unexpectedToken names tok))
    | .unexpectedEndOfFile names => ∀ tok post', ¬ Separates tok → (∀ name ∈ names, ¬ Expected name tok) →
        parse (tokens ++ tok :: post') = .ret (.error (.unexpectedToken names tok)) := by
  have h' := (parse_iff _ _).1 h
  have h := outcome_error h' rfl
  cases e with
  | unexpectedToken names t =>
    obtain ⟨pre, ⟨⟨post, hpost⟩, hno⟩, ⟨ext, ns, hok⟩, _, _, hu⟩ := h
    refine ⟨pre, post, hpost, ⟨ext, ns, (parse_ok_iff _ _).1 ((parse_iff _ _).2 hok)⟩, ?_, fun tok post' hs hx =>
      (parse_iff _ _).2 (hu tok ((plain_iff tok).2 hs) hx post')⟩
    rintro ⟨ext', ns', hp⟩
    rw [List.append_assoc] at hp
    have h1 := (parse_iff _ _).2 (hno ext')
    have h2 := (parse_ok_iff _ _).2 hp
    simp only [List.singleton_append] at h2
    rw [h1] at h2
    cases h2
  | unexpectedEndOfFile names =>
    obtain ⟨pre, rfl, _, _, _, hu⟩ := h
    exact fun tok post' hs hx => (parse_iff _ _).2 (hu tok ((plain_iff tok).2 hs) hx post')

/-- An instruction whose operand is missing: after the comma, a string is reported just as the label marker is. -/
example : parse [.identifier "ld".toList l0, .numericLiteral 1 l0, .comma l0, .stringLiteral "a".toList l0, .newline l0] =
    .ret (.error (.unexpectedToken ["instruction field".toList] (.stringLiteral "a".toList l0))) :=
  C54_complete [.identifier "ld".toList l0, .numericLiteral 1 l0, .comma l0] (.unexpectedEndOfFile ["instruction field".toList]) rfl
    (.stringLiteral "a".toList l0) [.newline l0] (by simp [Separates, IsNewline, IsComment])
    (by
      intro name hn hx
      cases hx
      simp at hn)

/-- C54: in place of the offending token, a token that is no newline, comment, comma or label marker can stand exactly if it
is of a kind named as expected. -/
theorem C54_token_iff (pre post : List Token) (names : List Str) (t : Token) (hpre : Completable pre)
    (ht : ¬ Completable (pre ++ [t])) (h : parse (pre ++ t :: post) = .ret (.error (.unexpectedToken names t)))
    (tok : Token) (hs : ¬ Separates tok) : Completable (pre ++ [tok]) ↔ ∃ name ∈ names, Expected name tok := by
  constructor
  · rintro ⟨ext, ns, hp⟩
    refine Classical.byContradiction fun hn => ?_
    obtain ⟨p, q, hq, hc, hb, hu⟩ := C54_complete _ _ h
    obtain rfl := first_bad_unique hq hpre ht hc hb
    have h1 := hu tok ext hs fun name hm hx => hn ⟨name, hm, hx⟩
    rw [List.append_assoc] at hp
    have h2 := (parse_ok_iff _ _).2 hp
    simp only [List.singleton_append] at h2
    rw [h1] at h2
    cases h2
  · rintro ⟨name, hm, hx⟩
    obtain ⟨p, q, hq, hc, hb, hu⟩ := C54_expected _ _ h
    obtain rfl := first_bad_unique hq hpre ht hc hb
    exact (hu name hm).2.1 tok hx

/-- A comma that begins a line: only a directive or an identifier could begin it (or a newline or comment). -/
example : ¬ Completable ([.identifier "cls".toList l0, .newline l0] ++ [.stringLiteral "a".toList l0]) := by
  obtain ⟨p, q, hq, hc, hb, _⟩ := C15_token [.identifier "cls".toList l0, .newline l0, .comma l0] _ _ rfl
  have hp : p = [.identifier "cls".toList l0, .newline l0] := by
    match p, hq with
    | [], hq => simp at hq
    | [_], hq => simp at hq
    | [_, _], hq => simp at hq; simp [hq]
    | _ :: _ :: _ :: p, hq => simp at hq
  subst hp
  rw [C54_token_iff _ [] ["directive marker".toList, "identifier".toList] (.comma l0) hc hb rfl _
    (by simp [Separates, IsNewline, IsComment])]
  rintro ⟨name, hm, hx⟩
  cases hx
  simp at hm

/-- C54: at the end of the file, a token that is no newline, comment, comma or label marker can come next exactly if it is
of a kind named as expected. -/
theorem C54_end_iff (tokens : List Token) (names : List Str) (h : parse tokens = .ret (.error (.unexpectedEndOfFile names)))
    (tok : Token) (hs : ¬ Separates tok) : Completable (tokens ++ [tok]) ↔ ∃ name ∈ names, Expected name tok := by
  constructor
  · rintro ⟨ext, ns, hp⟩
    refine Classical.byContradiction fun hn => ?_
    have h1 := C54_complete _ _ h tok ext hs fun name hm hx => hn ⟨name, hm, hx⟩
    rw [List.append_assoc] at hp
    have h2 := (parse_ok_iff _ _).2 hp
    simp only [List.singleton_append] at h2
    rw [h1] at h2
    cases h2
  · rintro ⟨name, hm, hx⟩
    exact ((C54_expected _ _ h) name hm).2 tok hx

example : ¬ Completable ([.directiveMarker l0] ++ [.numericLiteral 1 l0]) := by
  rw [C54_end_iff _ ["identifier".toList] rfl _ (by simp [Separates, IsNewline, IsComment])]
  rintro ⟨name, hm, hx⟩
  cases hx <;> simp at hm

/-- C49: the message of every error of the parser can be formatted. -/
theorem C49_parse_error_display (tokens : List Token) (e : ParseError) (h : parse tokens = .ret (.error e)) :
    ∃ message, e.display = .ret message := by
  have hne : expected e ≠ [] := by
    obtain ⟨_, _, _, hne, _⟩ := outcome_error ((parse_iff _ _).1 h) rfl
    exact hne
  cases e with
  | unexpectedEndOfFile names =>
    match names with
    | [] => exact (hne rfl).elim
    | [_] => exact ⟨_, rfl⟩
    | _ :: _ :: _ => exact ⟨_, rfl⟩
  | unexpectedToken names t =>
    match names, t with
    | [], _ => exact (hne rfl).elim
    | [_], .error _ _ => exact ⟨_, rfl⟩
    | _ :: _ :: _, .error _ _ => exact ⟨_, rfl⟩
    | [_], .directiveMarker _ | [_], .labelMarker _ | [_], .comma _ | [_], .newline _ | [_], .identifier _ _
    | [_], .numericLiteral _ _ | [_], .stringLiteral _ _ | [_], .singleLineComment _ _ => exact ⟨_, rfl⟩
    | _ :: _ :: _, .directiveMarker _ | _ :: _ :: _, .labelMarker _ | _ :: _ :: _, .comma _ | _ :: _ :: _, .newline _
    | _ :: _ :: _, .identifier _ _ | _ :: _ :: _, .numericLiteral _ _ | _ :: _ :: _, .stringLiteral _ _
    | _ :: _ :: _, .singleLineComment _ _ => exact ⟨_, rfl⟩

example : ∃ message, ParseError.display
    (.unexpectedEndOfFile ["numeric literal".toList, "string literal".toList]) = .ret message :=
  C49_parse_error_display [.directiveMarker l0, .identifier "db".toList l0] _ rfl

/-- C14: after a newline, any newlines and comments may be added or removed. -/
theorem C14_blank_lines (a blanks b : List Token) (t : Token) (ns : List Node) (ht : IsNewline t)
    (hc : ∀ x ∈ blanks, IsNewline x ∨ IsComment x) :
    parse (a ++ t :: (blanks ++ b)) = .ret (.ok ns) ↔ parse (a ++ t :: b) = .ret (.ok ns) := by
  rw [parse_ok_iff, parse_ok_iff]
  exact program_after_newline ht hc

example : parse [.identifier "cls".toList l0, .newline l0, .singleLineComment ";".toList l0, .newline l0] =
    .ret (.ok [.instruction l0 "cls".toList []]) :=
  (C14_blank_lines [.identifier "cls".toList l0] [.singleLineComment ";".toList l0, .newline l0] [] (.newline l0) _ ⟨_, rfl⟩
    (by simp [IsNewline, IsComment])).2 rfl

/-- C14: at the start of a file, any newlines and comments may be added or removed. -/
theorem C14_leading (blanks b : List Token) (ns : List Node) (hc : ∀ x ∈ blanks, IsNewline x ∨ IsComment x) :
    parse (blanks ++ b) = .ret (.ok ns) ↔ parse b = .ret (.ok ns) := by
  rw [parse_ok_iff, parse_ok_iff]
  exact program_blanks hc

example : parse [.singleLineComment ";".toList l0, .newline l0, .identifier "cls".toList l0, .newline l0] =
    .ret (.ok [.instruction l0 "cls".toList []]) :=
  (C14_leading [.singleLineComment ";".toList l0, .newline l0] [.identifier "cls".toList l0, .newline l0] _
    (by simp [IsNewline, IsComment])).2 rfl

/-- C14: a comment at the end of a line may be removed. -/
theorem C14_remove_comment (a b : List Token) (t c : Token) (ns : List Node) (ht : IsNewline t) (hc : IsComment c)
    (h : parse (a ++ c :: t :: b) = .ret (.ok ns)) : parse (a ++ t :: b) = .ret (.ok ns) := by
  rw [parse_ok_iff] at h ⊢
  exact program_remove_comment ht hc h

example : parse [.identifier "cls".toList l0, .newline l0] = .ret (.ok [.instruction l0 "cls".toList []]) :=
  C14_remove_comment [.identifier "cls".toList l0] [] (.newline l0) (.singleLineComment ";".toList l0) _ ⟨_, rfl⟩ ⟨_, _, rfl⟩ rfl

/-- What has been read ends with a directive without arguments, or after the comma that follows an argument of a
directive. -/
def OpenDirective (a : List Token) : Prop :=
  ∃ p l' s l args xs, a = p ++ .directiveMarker l' :: .identifier s l :: args ∧ ItemList LiteralTok true args xs

/-- C14: a comment may be added at the end of a line. Partial: not after a directive without arguments, or with a
trailing comma (see `C14_claim_false`). -/
theorem C14_add_comment_partial (a b : List Token) (t c : Token) (ns : List Node) (ht : IsNewline t) (hc : IsComment c)
    (ho : ¬ OpenDirective a) (h : parse (a ++ t :: b) = .ret (.ok ns)) : parse (a ++ c :: t :: b) = .ret (.ok ns) := by
  rw [parse_ok_iff] at h ⊢
  exact program_add_comment ht hc ho h

example : ¬ OpenDirective [.identifier "cls".toList l0] ∧
    parse [.identifier "cls".toList l0, .newline l0] = .ret (.ok [.instruction l0 "cls".toList []]) := by
  refine ⟨?_, rfl⟩
  rintro ⟨p, l', s, l, args, xs, h, _⟩
  have := congrArg List.length h
  simp at this
  omega

/-- C14: comments and newlines may be added at the end of a file. -/
theorem C14_trailing (a blanks : List Token) (ns : List Node) (hc : ∀ x ∈ blanks, IsNewline x ∨ IsComment x)
    (h : parse a = .ret (.ok ns)) : parse (a ++ blanks) = .ret (.ok ns) := by
  rw [parse_ok_iff] at h ⊢
  have h1 : Program blanks [] := by
    have := (program_blanks (b := []) hc).2 .empty
    rwa [List.append_nil] at this
  have h2 := program_append h h1
  rwa [List.append_nil] at h2

example : parse (sample ++ [.newline l0, .singleLineComment ";".toList l0]) = .ret (.ok sampleNodes) :=
  C14_trailing sample _ _ (by simp [IsNewline, IsComment]) ((C11_grammar _ _).2 sample_program)

/-- C14: the code does not accept a comment after a directive that ends in a comma, though it accepts the same line
without the comment. -/
theorem C14_claim_false : ¬ ∀ (a b : List Token) (t c : Token) (ns : List Node), IsNewline t → IsComment c →
    parse (a ++ t :: b) = .ret (.ok ns) → parse (a ++ c :: t :: b) = .ret (.ok ns) := by
  intro h
  have h1 := h [.directiveMarker anyLoc, .identifier "db".toList anyLoc, .numericLiteral 1 anyLoc, .comma anyLoc] []
    (.newline anyLoc) (.singleLineComment ";".toList anyLoc) [.directive anyLoc "db".toList [.numeric 1]] ⟨_, rfl⟩ ⟨_, _, rfl⟩ rfl
  have h2 : parse [.directiveMarker anyLoc, .identifier "db".toList anyLoc, .numericLiteral 1 anyLoc, .comma anyLoc,
    .singleLineComment ";".toList anyLoc, .newline anyLoc] = .ret (.error (.unexpectedToken
      ["numeric literal".toList, "string literal".toList] (.singleLineComment ";".toList anyLoc))) := rfl
  rw [show [Token.directiveMarker anyLoc, .identifier "db".toList anyLoc, .numericLiteral 1 anyLoc, .comma anyLoc] ++
    .singleLineComment ";".toList anyLoc :: .newline anyLoc :: [] = [.directiveMarker anyLoc, .identifier "db".toList anyLoc,
      .numericLiteral 1 anyLoc, .comma anyLoc, .singleLineComment ";".toList anyLoc, .newline anyLoc] from rfl, h2] at h1
  cases h1

/-- C11: programs may be put one after the other. -/
theorem C11_append (a b : List Token) (ns ms : List Node) (ha : parse a = .ret (.ok ns)) (hb : parse b = .ret (.ok ms)) :
    parse (a ++ b) = .ret (.ok (ns ++ ms)) := by
  rw [parse_ok_iff] at ha hb ⊢
  exact program_append ha hb

example : parse (sample ++ sample) = .ret (.ok (sampleNodes ++ sampleNodes)) :=
  C11_append _ _ _ _ ((C11_grammar _ _).2 sample_program) ((C11_grammar _ _).2 sample_program)

/-- The number of parts of a statement: itself and its arguments. -/
def partsOf : Node → Nat
  | .label _ _ => 1
  | .directive _ _ args => 1 + args.length
  | .instruction _ _ fields => 1 + fields.length

theorem items_length {α : Type} {tok : Token → α → Prop} {isOpen : Bool} {ts : List Token} {xs : List α}
    (h : ItemList tok isOpen ts xs) : xs.length ≤ ts.length := by
  induction h <;> simp only [List.length_cons, List.length_nil] at * <;> omega

/-- C10: the statements have, with their arguments, no more parts than there are tokens; the token of an error is one
of the tokens. -/
theorem C10_consumed (tokens : List Token) :
    (∀ ns, parse tokens = .ret (.ok ns) → (ns.map partsOf).sum ≤ tokens.length) ∧
    ∀ names t, parse tokens = .ret (.error (.unexpectedToken names t)) → t ∈ tokens := by
  refine ⟨fun ns h => ?_, fun names t h => ?_⟩
  · have hp := (parse_ok_iff _ _).1 h
    clear h
    induction hp with
    | empty => simp
    | blank _ _ ih => simp only [List.length_cons]; omega
    | label _ ih => simp only [List.map_cons, List.sum_cons, List.length_cons, partsOf]; omega
    | directive hi _ _ ih =>
      have := items_length hi
      simp only [List.map_cons, List.sum_cons, List.length_cons, List.length_append, partsOf]; omega
    | instruction hi _ _ ih =>
      have := items_length hi
      simp only [List.map_cons, List.sum_cons, List.length_cons, List.length_append, partsOf]; omega
  · obtain ⟨pre, post, rfl, _⟩ := C15_token tokens names t h
    simp

example : (sampleNodes.map partsOf).sum ≤ sample.length := (C10_consumed sample).1 _ ((parse_ok_iff _ _).2 sample_program)

end C8S
