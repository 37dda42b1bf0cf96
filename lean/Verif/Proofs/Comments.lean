import Verif.Spec.Comments
import Verif.Props.ByLine
import Verif.Proofs.Image

/- Lemmas for C118. -/

namespace C8S

open Spec

theorem newlines_joinLines (lines : List Str) (h : ∀ x ∈ lines, '\n' ∉ x) : newlines (joinLines lines) = lines.length := by
  induction lines with
  | nil => rfl
  | cons x rest ih =>
    have ih := ih fun y hy => h y (List.mem_cons_of_mem _ hy)
    have h1 : newlines x = 0 := List.count_eq_zero.2 (h x List.mem_cons_self)
    simp only [joinLines, List.flatMap_cons] at ih ⊢
    rw [newlines_append, newlines_append, h1, ih, List.length_cons]
    simp [newlines]
    omega

theorem newlines_commentedOut (lines : List Str) (h : ∀ x ∈ lines, '\n' ∉ x) : newlines (commentedOut lines) = lines.length := by
  rw [commentedOut, newlines_joinLines _ (by simpa using h), List.length_map]

theorem newlines_emptyLines (n : Nat) : newlines (emptyLines n) = n := by simp [newlines, emptyLines]

theorem whole_joinLines (lines : List Str) : WholeLines (joinLines lines) := by
  induction lines with
  | nil => exact .inl rfl
  | cons x rest ih =>
    rcases ih with e | ⟨t, e⟩
    · exact .inr ⟨x, by simp only [joinLines, List.flatMap_cons] at e ⊢; rw [e, List.append_nil]⟩
    · exact .inr ⟨x ++ ['\n'] ++ t, by simp only [joinLines, List.flatMap_cons] at e ⊢; rw [e]; simp⟩

theorem emptyLines_eq (n : Nat) : emptyLines n = joinLines (List.replicate n []) := by
  induction n with
  | zero => rfl
  | succ n ih => simpa [emptyLines, joinLines, List.replicate_succ] using ih

theorem longest_newline {bin : Str → Nat} (rest : Str) : Longest bin ['\n'] rest .newline := by
  refine ⟨.newline, ?_⟩
  intro s' rest' k' e h'
  cases h' with
  | newline => exact Nat.le_refl _
  | comma | labelMarker | directiveMarker => exact Nat.le_refl _
  | comment _ | indirect _ | string _ | binary _ _ _ | binaryRange _ _ _ => simp at e
  | name hn _ =>
    simp only [List.cons_append, List.cons.injEq] at e
    exact absurd hn (by rw [e.1]; decide)
  | hex hc _ _ _ =>
    simp only [List.cons_append, List.cons.injEq] at e
    rcases hc with rfl | rfl <;> exact absurd e.1 (by decide)
  | decimal hne hd _ | decimalRange hne hd _ =>
    cases s' with
    | nil => exact absurd rfl hne
    | cons d s =>
      simp only [List.cons_append, List.cons.injEq] at e
      exact absurd (hd d List.mem_cons_self) (by rw [e.1]; decide)

theorem not_error_newline : ¬ IsError .newline := by
  rintro ⟨e, h⟩
  cases congrFun h ⟨[], 0, 0, 0⟩

theorem not_error_comment (s : Str) : ¬ IsError (.singleLineComment s) := by
  rintro ⟨e, h⟩
  cases congrFun h ⟨[], 0, 0, 0⟩

/-- A text without statements. -/
theorem syntax_blank [Target] (file : Str) : SyntaxOf file [] (.ok []) := ⟨[], (scan_iff_lex _ _ _).2 (.done (by simp)), rfl⟩

theorem syntax_newline [Target] (file : Str) : SyntaxOf file ['\n'] (.ok []) := by
  refine ⟨[.newline (locate file [] ['\n'])], (scan_iff_lex _ _ _).2 ?_, rfl⟩
  exact .token (blanks := []) (s := ['\n']) (rest := []) (k := .newline) (by simp) (longest_newline _) not_error_newline
    (.done (by simp))

theorem syntax_comment [Target] (file x : Str) (hx : '\n' ∉ x) : SyntaxOf file (';' :: x) (.ok []) := by
  refine ⟨[.singleLineComment (';' :: x) (locate file [] (';' :: x))], (scan_iff_lex _ _ _).2 ?_, rfl⟩
  have := Lex.token (bin := wordBinary) (file := file) (before := []) (blanks := []) (s := ';' :: x) (rest := []) (tokens := [])
    (k := .singleLineComment (';' :: x)) (by simp) (longest_comment hx (by simp)) (not_error_comment _) (.done (by simp))
  simpa using this

theorem syntax_comment_line [Target] (file x : Str) (hx : '\n' ∉ x) : SyntaxOf file (';' :: x ++ ['\n']) (.ok []) := by
  refine ⟨[.singleLineComment (';' :: x) (locate file [] (';' :: x)), .newline (locate file (';' :: x) ['\n'])],
    (scan_iff_lex _ _ _).2 ?_, rfl⟩
  have h1 : Lex wordBinary file (';' :: x) ['\n'] [.newline (locate file (';' :: x) ['\n'])] := by
    have := Lex.token (bin := wordBinary) (file := file) (before := ';' :: x) (blanks := []) (s := ['\n']) (rest := [])
      (tokens := []) (k := .newline) (by simp) (longest_newline _) not_error_newline (.done (by simp))
    simpa using this
  have := Lex.token (bin := wordBinary) (file := file) (before := []) (blanks := []) (s := ';' :: x) (rest := ['\n'])
    (k := .singleLineComment (';' :: x)) (by simp) (longest_comment hx (by simp)) (not_error_comment _) h1
  simpa using this

/-- Lines without statements, one after the other, have no statements. -/
theorem syntax_quiet [Target] (file : Str) (lines : List Str) (h : ∀ x ∈ lines, SyntaxOf file (x ++ ['\n']) (.ok [])) :
    SyntaxOf file (joinLines lines) (.ok []) := by
  induction lines with
  | nil => exact syntax_blank file
  | cons x rest ih =>
    exact syntax_after (.inr ⟨x, rfl⟩) (h x List.mem_cons_self) (ih fun y hy => h y (List.mem_cons_of_mem _ hy))

theorem syntax_commentedOut [Target] (file : Str) (lines : List Str) (h : ∀ x ∈ lines, '\n' ∉ x) :
    SyntaxOf file (commentedOut lines) (.ok []) := by
  refine syntax_quiet file _ fun y hy => ?_
  obtain ⟨x, hx, rfl⟩ := List.mem_map.1 hy
  exact syntax_comment_line file x (h x hx)

theorem syntax_emptyLines [Target] (file : Str) (n : Nat) : SyntaxOf file (emptyLines n) (.ok []) := by
  rw [emptyLines_eq]
  refine syntax_quiet file _ fun y hy => ?_
  cases List.eq_of_mem_replicate hy
  exact syntax_newline file

theorem map_nil_append (out : Except ParseError (List Node)) : out.map (([] : List Node) ++ ·) = out := by cases out <;> rfl

/-- Text without statements between whole lines and further text only moves the latter down. -/
theorem syntax_between [Target] {file a x b : Str} (ha : WholeLines a) (hc : StringsClosed a) (hx : WholeLines x)
    (hq : SyntaxOf file x (.ok [])) {oa ob : Except ParseError (List Node)} (h : SyntaxOf file a oa) (h' : SyntaxOf file b ob) :
    SyntaxOf file (a ++ (x ++ b)) (match oa with
      | .ok p => (parsedMap (further (newlines a)) (parsedMap (further (newlines x)) ob)).map (p ++ ·)
      | .error e => .error e) := by
  cases oa with
  | ok p =>
    have h1 := syntax_after hx hq h'
    rw [map_nil_append] at h1
    exact syntax_after ha h h1
  | error e =>
    obtain ⟨tokens, hs, hp⟩ := h
    obtain ⟨ts', h1, h2⟩ := C73_lines file a (x ++ b) ha tokens e hs hp fun l => hc file tokens l hs
    exact ⟨ts', h1, h2⟩

theorem syntax_same [Target] {file t t' : Str} (h : ∃ out, SyntaxOf file t out ∧ SyntaxOf file t' out)
    (out : Except ParseError (List Node)) : SyntaxOf file t out ↔ SyntaxOf file t' out := by
  obtain ⟨o, h1, h2⟩ := h
  exact ⟨fun h => syntax_unique h1 h ▸ h2, fun h => syntax_unique h2 h ▸ h1⟩

theorem assembleText_same [Target] {input t t' : Str} (h : ∀ out, SyntaxOf input t out ↔ SyntaxOf input t' out) (env : Env)
    (program output : Str) : assembleText env program input output t = assembleText env program input output t' := by
  obtain ⟨out, h1⟩ := syntax_exists input t
  obtain ⟨ts', hs', hp'⟩ := (h out).1 h1
  obtain ⟨ts, hs, hp⟩ := h1
  simp only [assembleText, hs, hp, hs', hp']

end C8S
