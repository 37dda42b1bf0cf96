import Verif.Proofs.ByLine
import Verif.Props.Stable

/- Property C109: the syntax of a text is checked line by line. -/

namespace C8S

open Spec

/-! ### C109 -/

/-- C109: after whole lines that are accepted, the outcome is that of the rest of the text taken alone, with the statements
of the lines before it and further down. -/
theorem C109_after [Target] (file a b : Str) (p : List Node) (out : Except ParseError (List Node)) (ha : WholeLines a)
    (h : SyntaxOf file a (.ok p)) (h' : SyntaxOf file b out) : SyntaxOf file (a ++ b)
      (match out with
        | .ok q => .ok (p ++ q.map (nodeMap (further (newlines a))))
        | .error e => .error (parseErrorMap (further (newlines a)) e)) := by
  have := syntax_after ha h h'
  cases out <;> exact this

example : SyntaxOf [] "cls\n".toList (.ok [.instruction ⟨[], 1, 1, 3⟩ "cls".toList []]) ∧
    SyntaxOf [] "jp ,\n".toList (.error (.unexpectedToken ["instruction field".toList] (.comma ⟨[], 1, 4, 1⟩))) ∧
    SyntaxOf [] "cls\njp ,\n".toList (.error (.unexpectedToken ["instruction field".toList] (.comma ⟨[], 2, 4, 1⟩))) :=
  ⟨⟨_, rfl, rfl⟩, ⟨_, rfl, rfl⟩, ⟨_, rfl, rfl⟩⟩

/-- C109: the statements of lines that are accepted one by one are those of the lines, in their order. -/
theorem C109_statements [Target] (file : Str) (lines : List (Str × List Node))
    (h : ∀ x ∈ lines, WholeLines x.1 ∧ SyntaxOf file x.1 (.ok x.2)) :
    ∃ p, SyntaxOf file (lines.flatMap Prod.fst) (.ok p) ∧ p.map bareNode = lines.flatMap fun x => x.2.map bareNode := by
  induction lines with
  | nil => exact ⟨[], ⟨[], (scan_iff_lex _ _ _).2 (.done (by simp)), rfl⟩, rfl⟩
  | cons x rest ih =>
    obtain ⟨p, hp, e⟩ := ih fun y hy => h y (List.mem_cons_of_mem _ hy)
    obtain ⟨hw, hx⟩ := h x List.mem_cons_self
    refine ⟨_, C109_after file x.1 _ x.2 (.ok p) hw hx hp, ?_⟩
    rw [List.map_append, List.flatMap_cons, List.map_map, ← e]
    congr 2
    funext n
    cases n <;> rfl

/-- Two lines, one with a label and an instruction. -/
example : ∃ p, SyntaxOf [] "cls\na: ret\n".toList (.ok p) ∧
    p.map bareNode = [.instruction (nowhere ⟨[], 1, 1, 3⟩) "cls".toList [], .label (nowhere ⟨[], 1, 1, 1⟩) "a".toList,
      .instruction (nowhere ⟨[], 1, 4, 3⟩) "ret".toList []] := by
  refine C109_statements [] [("cls\n".toList, [.instruction ⟨[], 1, 1, 3⟩ "cls".toList []]),
    ("a: ret\n".toList, [.label ⟨[], 1, 1, 1⟩ "a".toList, .instruction ⟨[], 1, 4, 3⟩ "ret".toList []])] fun x hx => ?_
  simp only [List.mem_cons, List.not_mem_nil, or_false] at hx
  rcases hx with rfl | rfl
  · exact ⟨.inr ⟨"cls".toList, rfl⟩, _, rfl, rfl⟩
  · exact ⟨.inr ⟨"a: ret".toList, rfl⟩, _, rfl, rfl⟩

theorem whole_flatten {lines : List Str} (h : ∀ a ∈ lines, WholeLines a) : WholeLines lines.flatten := by
  induction lines with
  | nil => exact .inl rfl
  | cons a rest ih =>
    rw [List.flatten_cons]
    rcases ih fun b hb => h b (List.mem_cons_of_mem _ hb) with e | ⟨t, e⟩
    · rw [e, List.append_nil]
      exact h a List.mem_cons_self
    · exact .inr ⟨a ++ t, by rw [e, List.append_assoc]⟩

theorem syntax_flatten [Target] {file : Str} {lines : List Str} (hw : ∀ a ∈ lines, WholeLines a)
    (h : ∀ a ∈ lines, ∃ p, SyntaxOf file a (.ok p)) : ∃ p, SyntaxOf file lines.flatten (.ok p) := by
  induction lines with
  | nil => exact ⟨[], [], (scan_iff_lex _ _ _).2 (.done (by simp)), rfl⟩
  | cons a rest ih =>
    obtain ⟨p, hp⟩ := h a List.mem_cons_self
    obtain ⟨q, hq⟩ := ih (fun b hb => hw b (List.mem_cons_of_mem _ hb)) fun b hb => h b (List.mem_cons_of_mem _ hb)
    exact ⟨_, C109_after file a _ p (.ok q) (hw a List.mem_cons_self) hp hq⟩

/-- C109: the syntax error that is reported is that of the first line that has one, further down. What comes after does not
matter. -/
theorem C109_first_error [Target] (file : Str) (before : List Str) (a after : Str) (e : ParseError)
    (hb : ∀ b ∈ before, WholeLines b ∧ ∃ p, SyntaxOf file b (.ok p)) (ha : WholeLines a) (hc : StringsClosed a)
    (h : SyntaxOf file a (.error e)) :
    SyntaxOf file (before.flatten ++ (a ++ after)) (.error (parseErrorMap (further (newlines before.flatten)) e)) := by
  obtain ⟨tokens, hs, hp⟩ := h
  obtain ⟨ts', h1, h2⟩ := C73_lines file a after ha tokens e hs hp fun l => hc file tokens l hs
  obtain ⟨p, hp⟩ := syntax_flatten (fun b hx => (hb b hx).1) fun b hx => (hb b hx).2
  exact C109_after file _ _ p (.error e) (whole_flatten fun b hx => (hb b hx).1) hp ⟨ts', h1, h2⟩

/-- The second of three lines has a comma too many. -/
example : SyntaxOf [] (["cls\n".toList].flatten ++ ("jp ,\n".toList ++ "@".toList))
    (.error (.unexpectedToken ["instruction field".toList] (.comma ⟨[], 2, 4, 1⟩))) :=
  C109_first_error [] ["cls\n".toList] "jp ,\n".toList "@".toList _
    (by
      intro b hb
      cases List.mem_singleton.1 hb
      exact ⟨.inr ⟨"cls".toList, rfl⟩, _, _, rfl, rfl⟩)
    (.inr ⟨"jp ,".toList, rfl⟩)
    (by
      intro file tokens l hs
      have h := lex_unique ((scan_iff_lex _ _ _).1 hs) ((scan_iff_lex file _
        [.identifier "jp".toList ⟨file, 1, 1, 2⟩, .comma ⟨file, 1, 4, 1⟩, .newline ⟨file, 1, 5, 1⟩]).1 rfl)
      subst h
      simp)
    ⟨_, rfl, rfl⟩

/-- C109: a text is accepted exactly if each of its lines is, and what is left after the last newline. Strings that are open
at the end of a line are the exception. -/
theorem C109_accepted [Target] (file : Str) (lines : List Str) (last : Str)
    (hl : ∀ a ∈ lines, WholeLines a ∧ StringsClosed a) :
    (∃ p, SyntaxOf file (lines.flatten ++ last) (.ok p)) ↔
      (∀ a ∈ lines, ∃ p, SyntaxOf file a (.ok p)) ∧ ∃ p, SyntaxOf file last (.ok p) := by
  constructor
  · rintro ⟨p, hp⟩
    have hall : ∀ a ∈ lines, ∃ p, SyntaxOf file a (.ok p) := by
      refine Classical.byContradiction fun hn => ?_
      have hfirst : ∃ before a rest, lines = before ++ a :: rest ∧ (∀ b ∈ before, ∃ p, SyntaxOf file b (.ok p)) ∧
          ¬ ∃ p, SyntaxOf file a (.ok p) := by
        clear hp hl
        induction lines with
        | nil => exact absurd (fun a ha => by cases ha) hn
        | cons a rest ih =>
          by_cases h1 : ∃ p, SyntaxOf file a (.ok p)
          · obtain ⟨before, b, r, e, h2, h3⟩ := ih fun hr => hn fun b hb => by
              rcases List.mem_cons.1 hb with rfl | hb
              · exact h1
              · exact hr b hb
            refine ⟨a :: before, b, r, by rw [e, List.cons_append], fun c hc => ?_, h3⟩
            rcases List.mem_cons.1 hc with rfl | hc
            · exact h1
            · exact h2 c hc
          · exact ⟨[], a, rest, rfl, by simp, h1⟩
      obtain ⟨before, a, rest, rfl, hb, hbad⟩ := hfirst
      obtain ⟨out, ho⟩ := syntax_exists file a
      cases out with
      | ok q => exact hbad ⟨q, ho⟩
      | error e =>
        obtain ⟨hw, hc⟩ := hl a (by simp)
        have := C109_first_error file before a (rest.flatten ++ last) e
          (fun b hx => ⟨(hl b (by simp [hx])).1, hb b hx⟩) hw hc ho
        rw [List.flatten_append, List.flatten_cons, List.append_assoc, List.append_assoc] at hp
        cases syntax_unique hp this
    refine ⟨hall, ?_⟩
    obtain ⟨q, hq⟩ := syntax_flatten (fun a ha => (hl a ha).1) hall
    obtain ⟨out, ho⟩ := syntax_exists file last
    cases out with
    | ok r => exact ⟨r, ho⟩
    | error e => cases syntax_unique hp (C109_after file _ _ q (.error e) (whole_flatten fun a ha => (hl a ha).1) hq ho)
  · rintro ⟨h1, r, hr⟩
    obtain ⟨q, hq⟩ := syntax_flatten (fun a ha => (hl a ha).1) h1
    exact ⟨_, C109_after file _ _ q (.ok r) (whole_flatten fun a ha => (hl a ha).1) hq hr⟩

/-- The first line alone is accepted, so the text is accepted if the rest is. -/
example : (∃ p, SyntaxOf [] (["cls\n".toList].flatten ++ "jp".toList) (.ok p)) ↔
    (∀ a ∈ ["cls\n".toList], ∃ p, SyntaxOf [] a (.ok p)) ∧ ∃ p, SyntaxOf [] "jp".toList (.ok p) := by
  refine C109_accepted [] _ _ fun a ha => ?_
  cases List.mem_singleton.1 ha
  refine ⟨.inr ⟨"cls".toList, rfl⟩, fun file tokens l hs => ?_⟩
  have h := lex_unique ((scan_iff_lex _ _ _).1 hs) ((scan_iff_lex file _
    [.identifier "cls".toList ⟨file, 1, 1, 3⟩, .newline ⟨file, 1, 4, 1⟩]).1 rfl)
  subst h
  simp

/-- C109: when the line with the error is repaired, the text is accepted or the next error is reported below it, or at the
end of the file. -/
theorem C109_repair [Target] (file : Str) (before : List Str) (a after : Str) (out : Except ParseError (List Node))
    (hb : ∀ b ∈ before, WholeLines b ∧ ∃ p, SyntaxOf file b (.ok p)) (ha : WholeLines a) (h : ∃ p, SyntaxOf file a (.ok p))
    (ho : SyntaxOf file (before.flatten ++ (a ++ after)) out) :
    match out with
    | .ok _ => True
    | .error (.unexpectedToken _ t) => newlines (before.flatten ++ a) < t.location.line
    | .error (.unexpectedEndOfFile _) => ¬ WholeLines after := by
  obtain ⟨q, hq⟩ := syntax_flatten (lines := before ++ [a])
    (fun b hx => by
      rcases List.mem_append.1 hx with hx | hx
      · exact (hb b hx).1
      · cases List.mem_singleton.1 hx
        exact ha)
    (fun b hx => by
      rcases List.mem_append.1 hx with hx | hx
      · exact (hb b hx).2
      · cases List.mem_singleton.1 hx
        exact h)
  have hw : WholeLines (before ++ [a]).flatten := whole_flatten fun b hx => by
    rcases List.mem_append.1 hx with hx | hx
    · exact (hb b hx).1
    · cases List.mem_singleton.1 hx
      exact ha
  obtain ⟨out', ho'⟩ := syntax_exists file after
  have := C109_after file _ _ q out' hw hq ho'
  simp only [List.flatten_append, List.flatten_cons, List.flatten_nil, List.append_nil, List.append_assoc] at this
  cases syntax_unique ho this
  cases out' with
  | ok r => trivial
  | error e =>
    cases e with
    | unexpectedEndOfFile names =>
      intro hwl
      obtain ⟨tokens, hs, hp⟩ := ho'
      obtain ⟨n, t, e⟩ := C73_not_end file after hwl tokens _ hs hp
      cases e
    | unexpectedToken names t =>
      obtain ⟨tokens, hs, hp⟩ := ho'
      obtain ⟨pre, post, e, _⟩ := C15_token tokens names t hp
      have h1 := (C04_positive file after tokens hs t (by rw [e]; simp)).1
      show newlines (before.flatten ++ a) < (mapLoc (further (newlines (before.flatten ++ a))) t).location.line
      have h2 : (mapLoc (further (newlines (before.flatten ++ a))) t).location =
          further (newlines (before.flatten ++ a)) t.location := by cases t <;> rfl
      rw [h2]
      show _ < t.location.line + newlines (before.flatten ++ a)
      omega

/-- `jp ,` in the second line is repaired; then the `@` in the third line is reported. -/
example : ∃ names t, SyntaxOf [] (["cls\n".toList].flatten ++ ("jp 0\n".toList ++ "@".toList)) (.error (.unexpectedToken names t)) ∧
    t = .error (.invalidCharacter '@') ⟨[], 3, 1, 1⟩ := ⟨_, _, ⟨_, rfl, rfl⟩, rfl⟩

end C8S
