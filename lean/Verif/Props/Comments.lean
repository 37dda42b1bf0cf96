import Verif.Proofs.Comments

/- Property C118: lines that are turned into comments. -/

namespace C8S

open Spec

/-- C118: a text with lines commented out has the same statements, at the same locations, or the same syntax error, as the text
with empty lines in their place, whatever the lines contain. -/
theorem C118_empty [Target] (file a b : Str) (lines : List Str) (ha : WholeLines a) (hc : StringsClosed a)
    (hl : ∀ x ∈ lines, '\n' ∉ x) (out : Except ParseError (List Node)) :
    SyntaxOf file (a ++ (commentedOut lines ++ b)) out ↔ SyntaxOf file (a ++ (emptyLines lines.length ++ b)) out := by
  refine syntax_same ?_ out
  obtain ⟨oa, h⟩ := syntax_exists file a
  obtain ⟨ob, h'⟩ := syntax_exists file b
  have h1 := syntax_between ha hc (whole_joinLines _) (syntax_commentedOut file lines hl) h h'
  have h2 := syntax_between ha hc (by rw [emptyLines_eq]; exact whole_joinLines _) (syntax_emptyLines file lines.length) h h'
  rw [show newlines (joinLines (lines.map (';' :: ·))) = lines.length from newlines_commentedOut lines hl] at h1
  rw [newlines_emptyLines] at h2
  exact ⟨_, h1, h2⟩

/-- C118: the tool behaves the same for both, down to the messages it prints. -/
theorem C118_run [Target] (env : Env) (program input output a b : Str) (lines : List Str) (ha : WholeLines a)
    (hc : StringsClosed a) (hl : ∀ x ∈ lines, '\n' ∉ x) :
    assembleText env program input output (a ++ (commentedOut lines ++ b)) =
      assembleText env program input output (a ++ (emptyLines lines.length ++ b)) :=
  assembleText_same (fun out => C118_empty input a b lines ha hc hl out) env program output

theorem closed_of_ok [Target] {a : Str} {p : List Node} (h : SyntaxOf [] a (.ok p)) : StringsClosed a := by
  intro file tokens l hs hm
  obtain ⟨ts, h1, h2⟩ := h
  have hn := program_no_error ((parse_ok_iff _ _).1 h2)
  obtain ⟨ts', h3, h4, _⟩ := lex_of_cut (cut_of_lex ((scan_iff_lex _ _ _).1 h1) hn) file []
  cases lex_unique h3 ((scan_iff_lex _ _ _).1 hs)
  exact h4 _ l hm

example (env : Env) (program output : Str) :
    assembleText env program [] output ("cls\n".toList ++ (commentedOut ["jp @".toList, ".db \"".toList] ++ "ret\n".toList)) =
      assembleText env program [] output "cls\n\n\nret\n".toList :=
  C118_run env program [] output "cls\n".toList "ret\n".toList ["jp @".toList, ".db \"".toList] (.inr ⟨"cls".toList, rfl⟩)
    (closed_of_ok (p := [.instruction ⟨[], 1, 1, 3⟩ "cls".toList []]) ⟨_, rfl, rfl⟩) (by decide)

/-- C118: when lines of an accepted text are commented out, their statements are gone and all others stay, at the locations they
had. -/
theorem C118_statements [Target] (file a b : Str) (lines : List Str) (A X B : List Node) (ha : WholeLines a)
    (hl : ∀ x ∈ lines, '\n' ∉ x) (h : SyntaxOf file a (.ok A)) (hx : SyntaxOf file (joinLines lines) (.ok X))
    (h' : SyntaxOf file b (.ok B)) : ∃ X' B', X'.map bareNode = X.map bareNode ∧ B'.map bareNode = B.map bareNode ∧
      SyntaxOf file (a ++ (joinLines lines ++ b)) (.ok (A ++ (X' ++ B'))) ∧
      SyntaxOf file (a ++ (commentedOut lines ++ b)) (.ok (A ++ B')) := by
  have hb : ∀ (f : Loc → Loc) (ns : List Node), (ns.map (nodeMap f)).map bareNode = ns.map bareNode := by
    intro f ns
    rw [List.map_map]
    exact List.map_congr_left fun n _ => by cases n <;> rfl
  have h1 := syntax_after ha h (syntax_after (whole_joinLines lines) hx h')
  have h2 := syntax_after ha h (syntax_after (whole_joinLines _) (syntax_commentedOut file lines hl) h')
  rw [show newlines (joinLines (lines.map (';' :: ·))) = lines.length from newlines_commentedOut lines hl] at h2
  rw [newlines_joinLines lines hl] at h1
  refine ⟨X.map (nodeMap (further (newlines a))),
    (B.map (nodeMap (further lines.length))).map (nodeMap (further (newlines a))), hb _ _, ?_, ?_, ?_⟩
  · rw [hb, hb]
  · simpa [parsedMap, Except.map] using h1
  · simpa [parsedMap, Except.map, commentedOut] using h2

/-- The second of three lines is commented out. The third is still the third. -/
example : SyntaxOf [] ("cls\n".toList ++ (joinLines ["jp 7".toList] ++ "ret\n".toList))
      (.ok [.instruction ⟨[], 1, 1, 3⟩ "cls".toList [], .instruction ⟨[], 2, 1, 2⟩ "jp".toList [.numericLiteral 7],
        .instruction ⟨[], 3, 1, 3⟩ "ret".toList []]) ∧
    SyntaxOf [] ("cls\n".toList ++ (commentedOut ["jp 7".toList] ++ "ret\n".toList))
      (.ok [.instruction ⟨[], 1, 1, 3⟩ "cls".toList [], .instruction ⟨[], 3, 1, 3⟩ "ret".toList []]) :=
  ⟨⟨_, rfl, rfl⟩, ⟨_, rfl, rfl⟩⟩

/-- C118: the output is that of the text in which the lines are deleted. -/
theorem C118_output [Target] (file a b : Str) (lines : List Str) (bytes : List (Nat × U8)) (ha : WholeLines a)
    (hc : StringsClosed a) (hl : ∀ x ∈ lines, '\n' ∉ x) :
    Describes wordBinary file (a ++ (commentedOut lines ++ b)) bytes ↔ Describes wordBinary file (a ++ b) bytes := by
  obtain ⟨oa, h⟩ := syntax_exists file a
  obtain ⟨ob, h'⟩ := syntax_exists file b
  have h1 := syntax_between ha hc (whole_joinLines _) (syntax_commentedOut file lines hl) h h'
  have h2 := syntax_between ha hc (.inl rfl) (syntax_blank file) h h'
  rw [List.nil_append] at h2
  rw [show joinLines (lines.map (';' :: ·)) = commentedOut lines from rfl, newlines_commentedOut lines hl] at h1
  rw [show newlines [] = 0 from rfl] at h2
  have key : ∀ {t t' : Str} {o o' : Except ParseError (List Node)}, SyntaxOf file t o → SyntaxOf file t' o' →
      (∀ ns, o = .ok ns → ∃ ns', o' = .ok ns' ∧ ns.map bareNode = ns'.map bareNode) →
      Describes wordBinary file t bytes → Describes wordBinary file t' bytes := by
    intro t t' o o' hs ht ho hd
    rw [describes_iff] at hd ⊢
    obtain ⟨ts, ns, r, k1, k2, k3, k4⟩ := hd
    obtain ⟨ns', rfl, e⟩ := ho ns (syntax_unique hs ⟨ts, k1, k2⟩)
    obtain ⟨ts', k1', k2'⟩ := ht
    exact ⟨ts', ns', r, k1', k2', Image.assemble_same e k3, k4⟩
  have hb : ∀ (f : Loc → Loc) (ns : List Node), (ns.map (nodeMap f)).map bareNode = ns.map bareNode := by
    intro f ns
    rw [List.map_map]
    exact List.map_congr_left fun n _ => by cases n <;> rfl
  cases oa with
  | error e => exact ⟨key h1 h2 (fun ns h => nomatch h), key h2 h1 (fun ns h => nomatch h)⟩
  | ok p =>
    cases ob with
    | error e => exact ⟨key h1 h2 (fun ns h => nomatch h), key h2 h1 (fun ns h => nomatch h)⟩
    | ok q =>
      have e : (p ++ ((q.map (nodeMap (further lines.length))).map (nodeMap (further (newlines a))))).map bareNode =
          (p ++ ((q.map (nodeMap (further 0))).map (nodeMap (further (newlines a))))).map bareNode := by
        rw [List.map_append, List.map_append, hb, hb, hb, hb]
      exact ⟨key h1 h2 (fun ns h => by cases h; exact ⟨_, rfl, e⟩), key h2 h1 (fun ns h => by cases h; exact ⟨_, rfl, e.symm⟩)⟩

example (bytes : List (Nat × U8)) :
    Describes wordBinary [] ("cls\n".toList ++ (commentedOut ["jp @".toList] ++ "ret\n".toList)) bytes ↔
      Describes wordBinary [] "cls\nret\n".toList bytes :=
  C118_output [] "cls\n".toList "ret\n".toList ["jp @".toList] bytes (.inr ⟨"cls".toList, rfl⟩)
    (closed_of_ok (p := [.instruction ⟨[], 1, 1, 3⟩ "cls".toList []]) ⟨_, rfl, rfl⟩) (by decide)

/-- C118: commenting out what is left after the last newline has the effect of deleting it. -/
theorem C118_last [Target] (file a x : Str) (ha : WholeLines a) (hc : StringsClosed a) (hx : '\n' ∉ x)
    (out : Except ParseError (List Node)) : SyntaxOf file (a ++ ';' :: x) out ↔ SyntaxOf file a out := by
  refine syntax_same ?_ out
  obtain ⟨oa, h⟩ := syntax_exists file a
  refine ⟨oa, ?_, h⟩
  have h1 := syntax_between ha hc (.inl rfl) (syntax_blank file) h (syntax_comment file x hx)
  rw [List.nil_append] at h1
  cases oa with
  | error e => exact h1
  | ok p => simpa [parsedMap, Except.map] using h1

example : SyntaxOf [] ("cls\n".toList ++ ';' :: "jp @".toList) (.ok [.instruction ⟨[], 1, 1, 3⟩ "cls".toList []]) :=
  (C118_last [] "cls\n".toList "jp @".toList (.inr ⟨"cls".toList, rfl⟩)
    (closed_of_ok (p := [.instruction ⟨[], 1, 1, 3⟩ "cls".toList []]) ⟨_, rfl, rfl⟩) (by decide) _).2 ⟨_, rfl, rfl⟩

/-- C118: when the lines with the first syntax error are commented out, what is reported next is the outcome of the text that
follows them, at its place in the file. -/
theorem C118_next [Target] (file a b : Str) (lines : List Str) (A : List Node) (ob : Except ParseError (List Node))
    (ha : WholeLines a) (hl : ∀ x ∈ lines, '\n' ∉ x) (h : SyntaxOf file a (.ok A)) (h' : SyntaxOf file b ob) :
    SyntaxOf file (a ++ (commentedOut lines ++ b))
      (match ob with
        | .ok B => .ok (A ++ B.map (nodeMap (further (newlines a + lines.length))))
        | .error e => .error (parseErrorMap (further (newlines a + lines.length)) e)) := by
  have hw : WholeLines (a ++ commentedOut lines) := by
    rcases whole_joinLines (lines.map (';' :: ·)) with e | ⟨t, e⟩
    · rw [commentedOut, e, List.append_nil]
      exact ha
    · exact .inr ⟨a ++ t, by rw [commentedOut, e, List.append_assoc]⟩
  have h0 := syntax_after ha h (syntax_commentedOut file lines hl)
  simp only [parsedMap, Except.map, List.map_nil, List.append_nil] at h0
  have h1 := syntax_after hw h0 h'
  rw [newlines_append, newlines_commentedOut lines hl, List.append_assoc] at h1
  cases ob <;> exact h1

example : SyntaxOf [] ("cls\n".toList ++ (commentedOut ["jp @".toList] ++ "jp ,\n".toList))
    (.error (.unexpectedToken ["instruction field".toList] (.comma ⟨[], 3, 4, 1⟩))) :=
  C118_next [] "cls\n".toList "jp ,\n".toList ["jp @".toList] [.instruction ⟨[], 1, 1, 3⟩ "cls".toList []]
    (.error (.unexpectedToken ["instruction field".toList] (.comma ⟨[], 1, 4, 1⟩))) (.inr ⟨"cls".toList, rfl⟩) (by decide)
    ⟨_, rfl, rfl⟩ ⟨_, rfl, rfl⟩

/-- C118: inside a string that goes over several lines, a semicolon is a character like any other. -/
theorem C118_needs_closed [Target] : ∃ (a b : Str) (lines : List Str) (out : Except ParseError (List Node)), WholeLines a ∧
    (∀ x ∈ lines, '\n' ∉ x) ∧ SyntaxOf [] (a ++ (emptyLines lines.length ++ b)) out ∧
    ¬ SyntaxOf [] (a ++ (commentedOut lines ++ b)) out := by
  refine ⟨".db \"\n".toList, "\"".toList, [[]], .ok [.directive ⟨[], 1, 2, 2⟩ "db".toList [.string "\n\n".toList]],
    .inr ⟨".db \"".toList, rfl⟩, by simp, ⟨_, rfl, rfl⟩, ?_⟩
  intro h
  cases syntax_unique h (out' := .ok [.directive ⟨[], 1, 2, 2⟩ "db".toList [.string "\n;\n".toList]]) ⟨_, rfl, rfl⟩

end C8S
