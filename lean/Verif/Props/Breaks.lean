import Verif.Proofs.Breaks
import Verif.Proofs.DirectiveText

/- Property C119: where line breaks are needed. -/

namespace C8S

open Spec

/-- C119: what is accepted before a newline is accepted without the newline exactly if it does not end with an empty list of
arguments or operands or with a comma. -/
theorem C119_final [Target] (a : List Token) (l : Loc) (ns : List Node) (h : parse (a ++ [.newline l]) = .ret (.ok ns)) :
    parse a = .ret (.ok ns) ↔ ¬ Waiting a := by
  have ht : IsNewline (.newline l) := ⟨_, rfl⟩
  have h := (parse_ok_iff _ _).1 h
  rw [parse_ok_iff]
  constructor
  · exact fun hp hw => waiting_end hw hp
  · intro hw
    rcases program_last_newline h ht rfl with h | h
    · exact h
    · exact (hw h).elim

/-- `jp 7` is accepted at the end of a text, `cls` needs a newline. -/
example : parse [.identifier "jp".toList noLoc, .numericLiteral 7 noLoc] =
      .ret (.ok [.instruction noLoc "jp".toList [.numericLiteral 7]]) ∧
    parse [.identifier "jp".toList noLoc, .numericLiteral 7 noLoc, .newline noLoc] =
      .ret (.ok [.instruction noLoc "jp".toList [.numericLiteral 7]]) ∧
    parse [.identifier "cls".toList noLoc, .newline noLoc] = .ret (.ok [.instruction noLoc "cls".toList []]) ∧
    Waiting [.identifier "cls".toList noLoc] :=
  ⟨rfl, rfl, rfl, .instruction (p := []) .empty .empty⟩

/-- C119: a newline before a statement can be left out, with the same result, exactly if what is before it does not end with an
empty list or with a comma. -/
theorem C119_join [Target] (a b : List Token) (l : Loc) (ns : List Node) (hb : BeginsStatement b)
    (h : parse (a ++ .newline l :: b) = .ret (.ok ns)) : parse (a ++ b) = .ret (.ok ns) ↔ ¬ Waiting a := by
  have ht : IsNewline (.newline l) := ⟨_, rfl⟩
  obtain ⟨n1, n2, rfl, h1, h2⟩ := program_split ((parse_ok_iff _ _).1 h) ht rfl
  rw [parse_ok_iff]
  constructor
  · exact fun hp hw => waiting_join hw ht hb h1 hp
  · intro hw
    rcases program_last_newline h1 ht rfl with h | h
    · exact program_append h h2
    · exact (hw h).elim

/-- The newline between `.db 1` and `cls` can be left out. The one between `cls` and `.db 1` cannot. -/
example : parse [.directiveMarker noLoc, .identifier "db".toList noLoc, .numericLiteral 1 noLoc, .newline noLoc,
      .identifier "cls".toList noLoc, .newline noLoc] =
      .ret (.ok [.directive noLoc "db".toList [.numeric 1], .instruction noLoc "cls".toList []]) ∧
    parse [.directiveMarker noLoc, .identifier "db".toList noLoc, .numericLiteral 1 noLoc,
      .identifier "cls".toList noLoc, .newline noLoc] =
      .ret (.ok [.directive noLoc "db".toList [.numeric 1], .instruction noLoc "cls".toList []]) ∧
    parse [.identifier "cls".toList noLoc, .newline noLoc, .directiveMarker noLoc, .identifier "db".toList noLoc,
      .numericLiteral 1 noLoc] =
      .ret (.ok [.instruction noLoc "cls".toList [], .directive noLoc "db".toList [.numeric 1]]) ∧
    parse [.identifier "cls".toList noLoc, .directiveMarker noLoc, .identifier "db".toList noLoc, .numericLiteral 1 noLoc] =
      .ret (.error (.unexpectedToken ["instruction field".toList] (.directiveMarker noLoc))) ∧
    BeginsStatement [.directiveMarker noLoc, .identifier "db".toList noLoc, .numericLiteral 1 noLoc] :=
  ⟨rfl, rfl, rfl, rfl, ⟨_, _, rfl, by simp [IsNewline, IsComment]⟩⟩

/-- C119: a newline can be put before a token, with the same result, exactly if what is before the token and what begins with it
are accepted on their own and have the statements between them. -/
theorem C119_insert [Target] (a b : List Token) (l : Loc) (ns : List Node) (hb : BeginsStatement b)
    (h : parse (a ++ b) = .ret (.ok ns)) : parse (a ++ .newline l :: b) = .ret (.ok ns) ↔
      ∃ n1 n2, ns = n1 ++ n2 ∧ parse a = .ret (.ok n1) ∧ parse b = .ret (.ok n2) := by
  have ht : IsNewline (.newline l) := ⟨_, rfl⟩
  constructor
  · intro h'
    have hw := (C119_join a b l ns hb h').1 h
    obtain ⟨n1, n2, e, h1, h2⟩ := program_split ((parse_ok_iff _ _).1 h') ht rfl
    refine ⟨n1, n2, e, ?_, (parse_ok_iff _ _).2 h2⟩
    rcases program_last_newline h1 ht rfl with h | h
    · exact (parse_ok_iff _ _).2 h
    · exact (hw h).elim
  · rintro ⟨n1, n2, rfl, h1, h2⟩
    exact (parse_ok_iff _ _).2 (program_append ((parse_ok_iff _ _).1 h1) (.blank (.inl ht) ((parse_ok_iff _ _).1 h2)))

/-- A newline between `jp` and its operand is accepted, but makes two statements. -/
example : parse [.identifier "jp".toList noLoc, .identifier "cls".toList noLoc, .newline noLoc] =
      .ret (.ok [.instruction noLoc "jp".toList [.identifier "cls".toList]]) ∧
    parse [.identifier "jp".toList noLoc, .newline noLoc, .identifier "cls".toList noLoc, .newline noLoc] =
      .ret (.ok [.instruction noLoc "jp".toList [], .instruction noLoc "cls".toList []]) ∧
    BeginsStatement [.identifier "cls".toList noLoc, .newline noLoc] := ⟨rfl, rfl, ⟨_, _, rfl, by simp [IsNewline, IsComment]⟩⟩

/-- C119: two lines, the first without a comment, can be put on one exactly if the first does not end with an empty list or with
a comma, which is if the first is accepted without its newline. -/
theorem C119_text [Target] (file file' a b : Str) (ta tb : List Token) (A B : List Node) (ha : scan file a = .ret ta)
    (hn : NoLexError ta) (hc : ¬ EndsInComment ta) (hb : scan file' b = .ret tb) (hbb : BeginsStatement tb)
    (hA : Statements (a ++ ['\n']) A) (hB : Statements b B) :
    ((∃ N, Statements (a ++ ' ' :: b) N ∧ N.map bareNode = (A ++ B).map bareNode) ↔ ¬ Waiting ta) ∧
    (¬ Waiting ta ↔ ∃ N, Statements a N) := by
  have hca := cut_of_scan ha hn
  have hc' : ¬ EndsInComment (ta.map bare) := fun h => hc (comment_bare h)
  obtain ⟨ts, c1, p1⟩ := statements_cut hA
  cases cut_unique c1 (cut_then_newline hca (.done (by simp)))
  have ht : IsNewline (.newline noLoc) := ⟨_, rfl⟩
  obtain ⟨tb', c2, p2⟩ := statements_cut hB
  have hnb : tb' = tb.map bare := by
    obtain ⟨f, tb2, k1, k2⟩ := hB
    obtain ⟨ts', h3, h4, _⟩ := lex_of_cut (cut_of_lex ((scan_iff_lex _ _ _).1 k1) (program_no_error ((parse_ok_iff _ _).1 k2))) file' []
    cases lex_unique h3 ((scan_iff_lex _ _ _).1 hb)
    exact cut_unique c2 (cut_of_scan hb h4)
  subst hnb
  have hbb' : BeginsStatement (tb.map bare) := by
    obtain ⟨t, r, rfl, h⟩ := hbb
    exact ⟨_, _, rfl, by cases t <;> simp_all [bare, mapLoc, IsNewline, IsComment]⟩
  have hj := C119_join (ta.map bare) (tb.map bare) noLoc ((A ++ B).map bareNode) hbb' ((parse_ok_iff _ _).2 (by
    have := program_append p1 p2
    simpa using this))
  rw [waiting_bare ht p1, parse_ok_iff] at hj
  have cs := cut_then_space hca c2 hc'
  constructor
  · rw [← hj]
    constructor
    · rintro ⟨N, hN, e⟩
      obtain ⟨ts, c3, p3⟩ := statements_cut hN
      cases cut_unique c3 cs
      rwa [e] at p3
    · intro hp
      obtain ⟨N, hN, e⟩ := hasCut_statements (nodes := A ++ B) ⟨_, cs, hp⟩
      exact ⟨N, hN, e⟩
  · rw [← waiting_bare ht p1, waiting_iff ht p1, Classical.not_not]
    constructor
    · rintro ⟨n, h⟩
      obtain ⟨n', h'⟩ := (program_bare_iff ta).1 ⟨n, h⟩
      exact ⟨n', file, ta, ha, (parse_ok_iff _ _).2 h'⟩
    · rintro ⟨N, hN⟩
      obtain ⟨ts, c3, p3⟩ := statements_cut hN
      cases cut_unique c3 hca
      exact ⟨_, p3⟩

/-- `jp 5` and `cls` can be on one line, `cls` and `jp 5` cannot. -/
example : (∃ N, Statements "jp 5 cls\n".toList N ∧
      N.map bareNode = [.instruction noLoc "jp".toList [.numericLiteral 5], .instruction noLoc "cls".toList []]) ∧
    ¬ ∃ N, Statements "cls jp 5\n".toList N ∧
      N.map bareNode = [.instruction noLoc "cls".toList [], .instruction noLoc "jp".toList [.numericLiteral 5]] := by
  refine ⟨⟨_, ⟨[], _, rfl, rfl⟩, rfl⟩, fun h => ?_⟩
  exact ((C119_text [] [] "cls".toList "jp 5\n".toList [.identifier "cls".toList ⟨[], 1, 1, 3⟩] _
    [.instruction ⟨[], 1, 1, 3⟩ "cls".toList []] [.instruction ⟨[], 1, 1, 2⟩ "jp".toList [.numericLiteral 5]] rfl (by simp [NoLexError])
    (by simp [EndsInComment]) rfl ⟨_, _, rfl, by simp [IsNewline, IsComment]⟩ ⟨[], _, rfl, rfl⟩ ⟨[], _, rfl, rfl⟩).1.1 h)
    (.instruction (p := []) .empty .empty)

/-- C119: lines that are accepted without their newlines and end with no comment can all be put on one line. The output is the
same. -/
theorem C119_one_line [Target] (file : Str) (lines : List Str) (bytes : List (Nat × U8))
    (h : ∀ x ∈ lines, ∃ ts ns, scan [] x = .ret ts ∧ parse ts = .ret (.ok ns) ∧ ¬ EndsInComment ts) :
    Describes wordBinary file (onOneLine lines) bytes ↔ Describes wordBinary file (joinLines lines) bytes := by
  have key : ∃ ns, HasCut (onOneLine lines) ns ∧ HasCut (joinLines lines) ns := by
    induction lines with
    | nil => exact ⟨[], ⟨[], .done (by simp [onOneLine]), .empty⟩, ⟨[], .done (by simp [joinLines]), .empty⟩⟩
    | cons x rest ih =>
      obtain ⟨ns, h1, h2⟩ := ih fun y hy => h y (List.mem_cons_of_mem _ hy)
      obtain ⟨ts, n, k1, k2, k3⟩ := h x List.mem_cons_self
      have hc := cut_of_scan k1 (program_no_error ((parse_ok_iff _ _).1 k2))
      have hp := (parse_ok_iff _ _).1 (parse_map nowhere k2)
      have hn : ¬ EndsInComment (ts.map bare) := fun h => k3 (comment_bare h)
      refine ⟨n ++ ns, ?_, ?_⟩
      · simpa [onOneLine] using (hasCut_space hc hp hn h1).1
      · simpa [joinLines] using (hasCut_space hc hp hn h2).2
  obtain ⟨ns, h1, h2⟩ := key
  rw [hasCut_describes h1, hasCut_describes h2]

example (bytes : List (Nat × U8)) : Describes wordBinary [] "a: jp a .db 1, 2 ld v1, 3 ".toList bytes ↔
    Describes wordBinary [] "a: jp a\n.db 1, 2\nld v1, 3\n".toList bytes :=
  C119_one_line [] ["a: jp a".toList, ".db 1, 2".toList, "ld v1, 3".toList] bytes (by
    intro x hx
    simp only [List.mem_cons, List.not_mem_nil, or_false] at hx
    rcases hx with rfl | rfl | rfl
    · exact ⟨_, _, rfl, rfl, by simp [EndsInComment]⟩
    · exact ⟨_, _, rfl, rfl, by simp [EndsInComment]⟩
    · exact ⟨_, _, rfl, rfl, by simp [EndsInComment]⟩)

end C8S
