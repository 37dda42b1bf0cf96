import Verif.Proofs.Possible

/- Property C120: which reports can occur. -/

namespace C8S

open Spec

/-- C120: the lexical errors that occur in the tokens of some text are exactly the possible ones. -/
theorem C120_lexical [Target] (e : ScanError) :
    (∃ file text tokens l, scan file text = .ret tokens ∧ .error e l ∈ tokens) ↔ LexicalPossible e := by
  constructor
  · rintro ⟨file, text, tokens, l, hs, ht⟩
    have h := lex_possible ((scan_iff_lex _ _ _).1 hs) _ ht
    generalize ht : Token.error e l = t at h
    cases h with
    | @token s k l' hL hE =>
      exfalso
      cases hL <;> first | exact hE ⟨_, rfl⟩ | cases ht
    | error h => cases ht; exact h
  · intro h
    obtain ⟨s, hs⟩ := possible_lex (.error (l := noLoc) h)
    obtain ⟨t, ht, hl⟩ := hs [] []
    refine ⟨[], s, [t], ?_⟩
    cases t with
    | error e' l => cases ht; exact ⟨l, (scan_iff_lex _ _ _).2 hl, by simp⟩
    | _ => cases ht

/-- `$` alone is reported as an invalid hexadecimal literal, and `-` as an invalid character. -/
example [Target] : scan [] "$".toList = .ret [.error .invalidHexadecimalLiteral ⟨[], 1, 1, 1⟩] ∧
    scan [] "-".toList = .ret [.error (.invalidCharacter '-') ⟨[], 1, 1, 1⟩] ∧
    LexicalPossible (.invalidCharacter '-') :=
  ⟨rfl, rfl, .character (by decide) (by decide) (by decide) (by decide)⟩

/-- C120: an invalid identifier or an invalid decimal literal is never reported. -/
theorem C120_never [Target] (file text : Str) (tokens : List Token) (hs : scan file text = .ret tokens) (l : Loc) :
    .error .invalidIdentifier l ∉ tokens ∧ .error .invalidDecimalLiteral l ∉ tokens :=
  ⟨fun h => (by cases (C120_lexical _).1 ⟨_, _, _, _, hs, h⟩), fun h => (by cases (C120_lexical _).1 ⟨_, _, _, _, hs, h⟩)⟩

/-- A name directly behind a number is a token of its own, not an invalid literal. -/
example : scan [] "12ab".toList = .ret [.numericLiteral 12 ⟨[], 1, 1, 2⟩, .identifier "ab".toList ⟨[], 1, 3, 2⟩] := rfl

/-- C120: the syntax errors that are reported for some text are exactly the possible ones, up to the location. -/
theorem C120_syntax [Target] (e : ParseError) :
    (∃ file text e', SyntaxOf file text (.error e') ∧ parseErrorMap nowhere e' = parseErrorMap nowhere e) ↔ SyntaxPossible e := by
  constructor
  · rintro ⟨file, text, e', ⟨tokens, hs, hp⟩, he⟩
    rcases outcome_possible ((parse_iff _ _).1 hp) rfl with ⟨p, t, ht, hn, rfl⟩ | ⟨p, hs, rfl⟩
    · cases e with
      | unexpectedEndOfFile _ => cases he
      | unexpectedToken names t' =>
        simp only [parseErrorMap, ParseError.unexpectedToken.injEq] at he
        obtain ⟨rfl, he⟩ := he
        exact .token (possible_bare (lex_possible ((scan_iff_lex _ _ _).1 hs) _ ht) he.symm) fun h => hn (takes_bare h he)
    · cases e with
      | unexpectedEndOfFile names => cases he; exact .ending hs
      | unexpectedToken _ _ => cases he
  · intro h
    cases h with
    | @token p t ht hn =>
      obtain ⟨s, hs⟩ := possible_lex ht
      obtain ⟨text, tokens, t', hl, e, et⟩ := spot_lex hs p
      have hn : ¬ p.Takes t' := fun h => hn (takes_bare h e.symm)
      refine ⟨[], text, .unexpectedToken p.names t', ⟨tokens, (scan_iff_lex _ _ _).2 hl, ?_⟩, ?_⟩
      · subst et
        clear hl
        cases p <;> cases t' <;> first | rfl | exact (hn (by simp [Spot.Takes, IsNewline, IsComment])).elim
      · simpa [parseErrorMap, bare] using e
    | @ending p hp =>
      cases p with
      | statement => exact (hp rfl).elim
      | name => exact ⟨[], ".".toList, _, ⟨_, rfl, rfl⟩, rfl⟩
      | argument => exact ⟨[], ".a".toList, _, ⟨_, rfl, rfl⟩, rfl⟩
      | operand => exact ⟨[], "a".toList, _, ⟨_, rfl, rfl⟩, rfl⟩

/-- `.7` and `a` are such texts. -/
example : SyntaxOf [] ".7".toList (.error (.unexpectedToken ["identifier".toList] (.numericLiteral 7 ⟨[], 1, 2, 1⟩))) ∧
    SyntaxOf [] "a".toList (.error (.unexpectedEndOfFile ["instruction field".toList])) :=
  ⟨⟨_, rfl, rfl⟩, ⟨_, rfl, rfl⟩⟩

/-- C120: the errors of the assembler that are reported for some text are exactly the possible ones, up to the location. -/
theorem C120_semantic [Target] (e : SemanticError) :
    (∃ file text tokens nodes e', scan file text = .ret tokens ∧ parse tokens = .ret (.ok nodes) ∧
      assemble nodes = .ret (.error e') ∧ semanticErrorMap nowhere e' = semanticErrorMap nowhere e) ↔ SemanticPossible e := by
  constructor
  · rintro ⟨file, text, tokens, nodes, e', hs, hp, ha, he⟩
    have h := semantic_possible (C13_formed _ _ _ _ hs hp) ha
    cases e <;> cases e' <;> cases he <;> cases h
    · exact .directive ‹_›
    · exact .large ‹_›
    · exact .overflow ‹_› ‹_›
    · exact .past
    · exact .label ‹_›
    · exact .instruction ‹_›
    · exact .constant
  · intro h
    obtain ⟨ns, e1, hf, ha, he⟩ := possible_semantic h
    obtain ⟨file, text, tokens, nodes, e', h1, h2, h3, h4⟩ := reported_text hf ha
    exact ⟨file, text, tokens, nodes, e', h1, h2, h3, h4.trans he⟩

/-- `.db 300` is such a text, and a number past 255 in it is possible. -/
example : ∃ tokens nodes, scan [] ".db 300".toList = .ret tokens ∧ parse tokens = .ret (.ok nodes) ∧
    assemble nodes = .ret (.error (.directiveInvalid ⟨[], 1, 2, 2⟩ (.allNumericParametersMustBeByteLiterals "db".toList 300))) ∧
    SemanticPossible (.directiveInvalid ⟨[], 1, 2, 2⟩ (.allNumericParametersMustBeByteLiterals "db".toList 300)) :=
  ⟨_, _, rfl, rfl, rfl, .directive (.noByte (by decide) (by decide))⟩

end C8S
