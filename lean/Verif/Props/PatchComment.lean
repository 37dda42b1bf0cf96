import Verif.Proofs.PatchComment

/- Property C135: a repair of the lists of arguments. -/

namespace C8S

open Spec Parser

/-- C135: with the lists of arguments stopping at a comment, the parser accepts exactly the programs of the syntax in which a
newline and a comment are alike, with the statements of that syntax. -/
theorem C135_grammar (ts : List Token) (ns : List Node) : parseStop ts = .ret (.ok ns) ↔ FreeProgram ts ns :=
  parseStop_ok_iff ts ns

example (l : Loc) : parseStop [.directiveMarker l, .identifier "db".toList l, .numericLiteral 1 l, .comma l,
      .singleLineComment ";".toList l, .newline l] = .ret (.ok [.directive l "db".toList [.numeric 1]]) :=
  (C135_grammar _ _).2 (.directive (isOpen := true) (args := [.numericLiteral 1 l, .comma l]) (.more .numeric .empty)
    (fun _ => ⟨_, _, rfl, .inr ⟨_, _, rfl⟩⟩) (.blank (.inr ⟨_, _, rfl⟩) (.blank (.inl ⟨_, rfl⟩) .empty)))

/-- C135: the changed parser never panics. -/
theorem C135_returns (ts : List Token) : ∃ out, parseStop ts = .ret out := by
  obtain ⟨out, _, h⟩ := stopOutcome_exists ts
  exact ⟨out, h⟩

example (l : Loc) : parseStop [.comma l] =
    .ret (.error (.unexpectedToken ["directive marker".toList, "identifier".toList] (.comma l))) := rfl

/-- C135: with it, the claim of C14 holds without exception: a comment may be added and removed at the end of every line. -/
theorem C135_comment (a b : List Token) (t c : Token) (ns : List Node) (ht : IsNewline t) (hc : IsComment c) :
    parseStop (a ++ c :: t :: b) = .ret (.ok ns) ↔ parseStop (a ++ t :: b) = .ret (.ok ns) := by
  have h1 : AllBlank [c, t] := by
    intro x hx
    simp only [List.mem_cons, List.not_mem_nil, or_false] at hx
    rcases hx with rfl | rfl
    · exact .inr hc
    · exact .inl ht
  have h2 : AllBlank [t] := by
    intro x hx
    simp only [List.mem_singleton] at hx
    subst hx
    exact .inl ht
  rw [C135_grammar, C135_grammar]
  exact ⟨freeProgram_runs h1 h2 (by simp) (by simp), freeProgram_runs h2 h1 (by simp) (by simp)⟩

example (l : Loc) : parseStop [.directiveMarker l, .identifier "org".toList l, .singleLineComment ";".toList l, .newline l] =
    .ret (.ok [.directive l "org".toList []]) :=
  (C135_comment [.directiveMarker l, .identifier "org".toList l] [] (.newline l) (.singleLineComment ";".toList l) _ ⟨_, rfl⟩
    ⟨_, _, rfl⟩).2 rfl

/-- C135: more generally, any newlines and comments may stand where some stand. -/
theorem C135_runs (a b blanks blanks' : List Token) (ns : List Node) (h : ∀ x ∈ blanks, IsNewline x ∨ IsComment x)
    (h' : ∀ x ∈ blanks', IsNewline x ∨ IsComment x) (hn : blanks ≠ []) (hn' : blanks' ≠ []) :
    parseStop (a ++ (blanks ++ b)) = .ret (.ok ns) ↔ parseStop (a ++ (blanks' ++ b)) = .ret (.ok ns) := by
  rw [C135_grammar, C135_grammar]
  exact ⟨freeProgram_runs h h' hn hn', freeProgram_runs h' h hn' hn⟩

example (l : Loc) : parseStop [.directiveMarker l, .identifier "org".toList l, .singleLineComment ";".toList l] =
    .ret (.ok [.directive l "org".toList []]) :=
  (C135_runs [.directiveMarker l, .identifier "org".toList l] [] [.newline l] [.singleLineComment ";".toList l] _
    (by simp [IsNewline]) (by simp [IsComment]) (by simp) (by simp)).1 rfl

/-- C135: where no comment follows a directive without arguments or with a trailing comma, the changed parser answers what the
parser of the code answers, errors included. -/
theorem C135_same (ts : List Token) (h : ¬ OpenBeforeComment ts) : parseStop ts = parse ts := by
  obtain ⟨out, h1, h2⟩ := outcome_exists ts
  rw [h2, parseStop_iff]
  exact outcome_same h1 h

example (l : Loc) : ¬ OpenBeforeComment [.directiveMarker l, .identifier "db".toList l, .numericLiteral 1 l, .newline l] ∧
    OpenBeforeComment [.directiveMarker l, .identifier "db".toList l, .singleLineComment ";".toList l] := by
  refine ⟨outcome_no_open ((parse_iff _ _).1 (show parse _ = .ret (.ok [.directive l "db".toList [.numeric 1]]) from rfl)) rfl, ?_⟩
  exact ⟨[], l, "db".toList, l, [], [], _, [], rfl, .empty, _, _, rfl⟩

/-- C135: the parser of the code accepts exactly what the changed one accepts, with the same statements, except where a comment
follows a directive without arguments or with a trailing comma. -/
theorem C135_exact (ts : List Token) (ns : List Node) :
    parse ts = .ret (.ok ns) ↔ parseStop ts = .ret (.ok ns) ∧ ¬ OpenBeforeComment ts := by
  constructor
  · intro h
    have hn := outcome_no_open ((parse_iff _ _).1 h) rfl
    exact ⟨(C135_same ts hn).trans h, hn⟩
  · rintro ⟨h, hn⟩
    exact (C135_same ts hn).symm.trans h

example (l : Loc) : parse [.directiveMarker l, .identifier "db".toList l, .singleLineComment ";".toList l] ≠
    .ret (.ok [.directive l "db".toList []]) := fun h =>
  ((C135_exact _ _).1 h).2 ⟨[], l, "db".toList, l, [], [], _, [], rfl, .empty, _, _, rfl⟩

end C8S
