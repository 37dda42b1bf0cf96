import Verif.Proofs.Stable

/- Properties on errors that do not depend on what follows them in the text: C73. -/

namespace C8S

open Spec LayoutExample

/-- C73: an error found at a token is found there whatever tokens are added. -/
theorem C73_tokens (tokens more : List Token) (names : List Str) (t : Token)
    (h : parse tokens = .ret (.error (.unexpectedToken names t))) :
    parse (tokens ++ more) = .ret (.error (.unexpectedToken names t)) := by
  obtain ⟨p, ⟨⟨q, rfl⟩, hno⟩, _⟩ := outcome_error ((parse_iff _ _).1 h) rfl
  rw [List.append_assoc, List.cons_append]
  exact (parse_iff _ _).2 (hno (q ++ more))

example (l : Loc) (more : List Token) : parse ([.identifier "jp".toList l, .comma l] ++ more) =
    .ret (.error (.unexpectedToken ["instruction field".toList] (.comma l))) := C73_tokens _ _ _ _ rfl

/-- C73: the report on a text of whole lines names a token: it is never that the file ends too soon. -/
theorem C73_not_end [Target] (file a : Str) (ha : WholeLines a) (tokens : List Token) (e : ParseError)
    (hs : scan file a = .ret tokens) (hp : parse tokens = .ret (.error e)) : ∃ names t, e = .unexpectedToken names t := by
  cases e with
  | unexpectedToken names t => exact ⟨names, t, rfl⟩
  | unexpectedEndOfFile names =>
    exfalso
    obtain ⟨⟨ext, ns, hx⟩, hn, _⟩ := C15_end tokens names hp
    have hne : NoLexError tokens := fun e l hm => program_no_error hx e l (List.mem_append_left _ hm)
    rcases ha with rfl | ⟨t, rfl⟩
    · cases lex_unique ((scan_iff_lex _ _ _).1 hs) (.done (by simp))
      exact hn ⟨[], .empty⟩
    · obtain ⟨p, l, rfl⟩ := lex_newline_last ((scan_iff_lex _ _ _).1 hs) hne
      obtain ⟨n1, _, _, h1, _⟩ := program_split hx (a := p) (r := ext) ⟨l, rfl⟩ (by simp)
      exact hn ⟨n1, h1⟩

/-- Without its newline, the line ends too soon. -/
example : parse [.identifier "jp".toList ⟨[], 1, 1, 2⟩] = .ret (.error (.unexpectedEndOfFile ["instruction field".toList])) ∧
    ¬ WholeLines "jp".toList := by
  refine ⟨rfl, ?_⟩
  rintro (h | ⟨p, h⟩)
  · cases h
  · have := congrArg List.getLast? h
    simp at this

/-- C73: if whole lines are rejected, the same report is made whatever text is added. A string that is not closed is the
exception. -/
theorem C73_lines [Target] (file a b : Str) (ha : WholeLines a) (tokens : List Token) (e : ParseError)
    (hs : scan file a = .ret tokens) (hp : parse tokens = .ret (.error e))
    (hc : ∀ l, .error .invalidStringLiteral l ∉ tokens) :
    ∃ tokens', scan file (a ++ b) = .ret tokens' ∧ parse tokens' = .ret (.error e) := by
  obtain ⟨names, t, rfl⟩ := C73_not_end file a ha tokens e hs hp
  by_cases hn : NoLexError tokens
  · obtain ⟨ts', h'⟩ := lex_exists file a b
    exact ⟨_, lex_after ha hs hn h', C73_tokens tokens ts' names t hp⟩
  · refine ⟨tokens, ?_, hp⟩
    simp only [NoLexError, Classical.not_forall, Classical.not_not] at hn
    obtain ⟨er, l, hm⟩ := hn
    rw [scan_iff_lex] at hs ⊢
    rcases ha with rfl | ⟨u, rfl⟩
    · cases lex_unique hs (.done (by simp))
      cases hm
    · refine lex_error_more hs ⟨u, rfl⟩ hm ?_
      rintro rfl
      exact hc l hm

example : WholeLines "jp ,\n".toList ∧ scan [] "jp ,\n".toList =
      .ret [.identifier "jp".toList ⟨[], 1, 1, 2⟩, .comma ⟨[], 1, 4, 1⟩, .newline ⟨[], 1, 5, 1⟩] ∧
    parse [.identifier "jp".toList ⟨[], 1, 1, 2⟩, .comma ⟨[], 1, 4, 1⟩, .newline ⟨[], 1, 5, 1⟩] =
      .ret (.error (.unexpectedToken ["instruction field".toList] (.comma ⟨[], 1, 4, 1⟩))) :=
  ⟨.inr ⟨"jp ,".toList, rfl⟩, rfl, rfl⟩

example : scan [] "jp @\n".toList =
    .ret [.identifier "jp".toList ⟨[], 1, 1, 2⟩, .error (.invalidCharacter '@') ⟨[], 1, 4, 1⟩] := rfl

/-- C73: the tool then behaves the same. -/
theorem C73_run [Target] (env : Env) (program input output a b : Str) (ha : WholeLines a) (tokens : List Token) (e : ParseError)
    (hs : scan input a = .ret tokens) (hp : parse tokens = .ret (.error e))
    (hc : ∀ l, .error .invalidStringLiteral l ∉ tokens) :
    assembleText env program input output (a ++ b) = assembleText env program input output a := by
  obtain ⟨ts', h1, h2⟩ := C73_lines input a b ha tokens e hs hp hc
  simp only [assembleText, hs, hp, h1, h2]

example (env : Env) (program output b : Str) : assembleText env program [] output ("jp ,\n".toList ++ b) =
    assembleText env program [] output "jp ,\n".toList :=
  C73_run env program [] output _ b (.inr ⟨"jp ,".toList, rfl⟩)
    [.identifier "jp".toList ⟨[], 1, 1, 2⟩, .comma ⟨[], 1, 4, 1⟩, .newline ⟨[], 1, 5, 1⟩]
    (.unexpectedToken ["instruction field".toList] (.comma ⟨[], 1, 4, 1⟩)) rfl rfl (by simp)

/-- C73: a fault in the layout of whole lines is reported the same whatever well-formed text is added. -/
theorem C73_layout [Target] (env : Env) (program input output a b : Str) (ha : WholeLines a) (tokens : List Token)
    (nodes more : List Node) (e : SemanticError) (hs : scan input a = .ret tokens) (hp : parse tokens = .ret (.ok nodes))
    (he : defineLabels nodes = .error e) (hb : Statements b more) :
    assembleText env program input output (a ++ b) = assembleText env program input output a ∧
      assembleText env program input output a = ⟨[.printed (e.display ++ "\n".toList)], .code 1⟩ := by
  have hn := program_no_error ((parse_ok_iff _ _).1 hp)
  obtain ⟨file, ts, hs', hp'⟩ := hb
  obtain ⟨ts', h'⟩ := lex_exists input a b
  have h1 := lex_after ha hs hn h'
  have hnt := program_no_error ((parse_ok_iff _ _).1 hp')
  have hc := cut_of_lex ((scan_iff_lex _ _ _).1 hs') hnt
  have hbare : ts.map bare = ts'.map bare := by
    obtain ⟨x, h2, h3, h4⟩ := lex_of_cut hc input a
    rw [lex_unique h' h2, h4]
  obtain ⟨ns, h3, _⟩ := program_bare hbare ((parse_ok_iff _ _).1 hp')
  have h4 := (parse_ok_iff _ _).2 (program_append ((parse_ok_iff _ _).1 hp) h3)
  obtain ⟨pre, n, post, rfl, _, h5⟩ := C51_local nodes e he
  have h6 := h5 post
  have h7 := h5 (post ++ ns)
  rw [List.append_assoc, List.cons_append] at h4
  constructor
  · simp only [assembleText, hs, hp, h1, h4, h6, h7]
  · simp only [assembleText, hs, hp, h6]

example : scan [] "a:a:\n".toList = .ret [.identifier "a".toList ⟨[], 1, 1, 1⟩, .labelMarker ⟨[], 1, 2, 1⟩,
      .identifier "a".toList ⟨[], 1, 3, 1⟩, .labelMarker ⟨[], 1, 4, 1⟩, .newline ⟨[], 1, 5, 1⟩] ∧
    defineLabels [.label ⟨[], 1, 1, 1⟩ "a".toList, .label ⟨[], 1, 3, 1⟩ "a".toList] =
      .error (.redefinitionOfLabel ⟨[], 1, 3, 1⟩ "a".toList) ∧ Statements "cls\n".toList [.instruction ⟨[], 1, 1, 3⟩ "cls".toList []] :=
  ⟨rfl, rfl, [], _, rfl, rfl⟩

/-- C73: a string that is not closed is closed by the text that follows. -/
theorem C73_needs_closed [Target] : ∃ (a b : Str) (ts ts' : List Token) (e : ParseError) (ns : List Node), WholeLines a ∧
    scan [] a = .ret ts ∧ parse ts = .ret (.error e) ∧ scan [] (a ++ b) = .ret ts' ∧ parse ts' = .ret (.ok ns) :=
  ⟨".db \"\n".toList, "\"".toList, _, _, _, _, .inr ⟨".db \"".toList, rfl⟩, rfl, rfl, rfl, rfl⟩

end C8S
