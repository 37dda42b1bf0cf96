import Verif.Proofs.Diagnostics
import Verif.Props.Scanner
import Verif.Props.Tool

/- Printed locations: C56. -/

namespace C8S

open Spec

/-- C56: the printed location of a token is the line it starts on, the column of its first character and the column of
its last character on that line, if it is another one. -/
theorem C56_token [Target] (file text : Str) (tokens : List Token) (h : scan file text = .ret tokens) :
    ∃ pieces tail, Pieces text tokens pieces tail ∧
      ∀ (i : Nat) (t : Token) (p : Str × Str), tokens[i]? = some t → pieces[i]? = some p →
        LocatesText file (textBefore pieces i p) p.2 t.location.display := by
  obtain ⟨pieces, tail, hP, hloc⟩ := C04_locations file text tokens h
  refine ⟨pieces, tail, hP, fun i t p ht hp => ?_⟩
  rw [hloc i t p ht hp]
  exact locates_of file _ _ (hP.nonempty p (List.mem_of_getElem? hp))

/-- The name of the second line. -/
example : scan "a.s".toList "cls\n jp\n".toList = .ret [.identifier "cls".toList ⟨"a.s".toList, 1, 1, 3⟩,
      .newline ⟨"a.s".toList, 1, 4, 1⟩, .identifier "jp".toList ⟨"a.s".toList, 2, 2, 2⟩,
      .newline ⟨"a.s".toList, 2, 4, 1⟩] ∧
    LocatesText "a.s".toList "cls\n ".toList "jp".toList (Loc.display ⟨"a.s".toList, 2, 2, 2⟩) :=
  ⟨by decide +kernel, locates_of _ _ _ (by decide)⟩

/-- C56: line and columns can be read off the printed location. -/
theorem C56_unambiguous (file : Str) (line first last line' first' last' : Nat) (s : Str)
    (h : LocationText file line first last s) (h' : LocationText file line' first' last' s) :
    line = line' ∧ first = first' ∧ last = last' :=
  locationText_unique h h'

example : scan "a.s".toList "\n ld v0,\n".toList = .ret [.newline ⟨"a.s".toList, 1, 1, 1⟩, .identifier "ld".toList ⟨"a.s".toList, 2, 2, 2⟩,
      .identifier "v0".toList ⟨"a.s".toList, 2, 5, 2⟩, .comma ⟨"a.s".toList, 2, 7, 1⟩, .newline ⟨"a.s".toList, 2, 8, 1⟩] ∧
    Loc.display ⟨"a.s".toList, 2, 5, 2⟩ = "a.s:2:5-6".toList ∧
    LocatesText "a.s".toList "\n ld ".toList "v0".toList "a.s:2:5-6".toList ∧
    LocatesText "a.s".toList "\n ld v0".toList ",".toList "a.s:2:7".toList := by
  refine ⟨by decide +kernel, by decide +kernel, locates_of _ _ _ (by decide), locates_of _ _ _ (by decide)⟩

/-- C56: when the text does not parse because of a token, one message is printed, which starts with the location of the
first token that no valid text can have there. -/
theorem C56_syntax [Target] (env : Env) (program input output text : Str) (tokens : List Token) (names : List Str) (t : Token)
    (hs : scan input text = .ret tokens) (hp : parse tokens = .ret (.error (.unexpectedToken names t))) :
    ∃ pieces tail pre post piece printed rest, Pieces text tokens pieces tail ∧ tokens = pre ++ t :: post ∧
      Completable pre ∧ ¬ Completable (pre ++ [t]) ∧ pieces[pre.length]? = some piece ∧
      LocatesText input (textBefore pieces pre.length piece) piece.2 printed ∧
      assembleText env program input output text = ⟨[.printed (printed ++ ": error: ".toList ++ rest ++ "\n".toList)], .code 1⟩ := by
  obtain ⟨pre, post, rfl, h1, h2, hne⟩ := C15_token tokens names t hp
  obtain ⟨pieces, tail, hP, hloc⟩ := C56_token input text _ hs
  have hlt : pre.length < pieces.length := by rw [hP.count]; simp
  have hd : ∃ rest, ParseError.display (.unexpectedToken names t) = .ret (t.location.display ++ ": error: ".toList ++ rest) := by
    cases names with
    | nil => exact (hne rfl).elim
    | cons a names =>
      have e1 : ": error: Unexpected token found: ".toList = ": error: ".toList ++ "Unexpected token found: ".toList := rfl
      have e2 : ": error: Encountered syntax error: ".toList = ": error: ".toList ++ "Encountered syntax error: ".toList := rfl
      cases t <;> cases names <;> simp only [ParseError.display, Token.location, e1, e2, List.append_assoc] <;> exact ⟨_, rfl⟩
  obtain ⟨rest, hd⟩ := hd
  refine ⟨pieces, tail, pre, post, pieces[pre.length], t.location.display, rest, hP, rfl, h1, h2,
    List.getElem?_eq_getElem hlt, hloc _ t _ (by simp) (List.getElem?_eq_getElem hlt), ?_⟩
  unfold assembleText
  simp only [hs, hp, hd]

example : ∃ tokens, scan "a.s".toList "cls v1, :".toList = .ret tokens ∧
    ∃ names t, parse tokens = .ret (.error (.unexpectedToken names t)) := ⟨_, rfl, _, _, rfl⟩

/-- C56: when the text parses but is no valid program, one message is printed: what the error found says, and this starts
with the location of the name of the statement at fault. -/
theorem C56_semantic [Target] (env : Env) (program input output text : Str) (tokens : List Token) (nodes : List Node)
    (hs : scan input text = .ret tokens) (hp : parse tokens = .ret (.ok nodes)) (hv : ∀ labels, ¬ Valid nodes labels) :
    ∃ e pieces tail i name pre n piece printed rest, Pieces text tokens pieces tail ∧ AtFault nodes pre n e ∧
      tokens[i]? = some (.identifier name (nodeLocation n)) ∧ pieces[i]? = some piece ∧
      LocatesText input (textBefore pieces i piece) piece.2 printed ∧
      e.display = printed ++ ": error: ".toList ++ rest ∧
      assembleText env program input output text = ⟨[.printed (e.display ++ "\n".toList)], .code 1⟩ := by
  have hprog := (parse_ok_iff _ _).1 hp
  obtain ⟨e, ha⟩ := C34_invalid nodes (program_registers hprog) hv
  obtain ⟨pre, n, rest, hf, hd⟩ := C49_semantic nodes (program_registers hprog) e ha
  have hn : n ∈ nodes := by
    obtain ⟨post, rfl, _⟩ := hf
    simp
  obtain ⟨name, hm⟩ := program_location hprog n hn
  obtain ⟨pieces, tail, hP, hloc⟩ := C56_token input text _ hs
  obtain ⟨i, hi⟩ := List.getElem?_of_mem hm
  obtain ⟨hlt, _⟩ := List.getElem?_eq_some_iff.1 hi
  have hlt' : i < pieces.length := by rw [hP.count]; exact hlt
  refine ⟨e, pieces, tail, i, name, pre, n, pieces[i], (nodeLocation n).display, rest, hP, hf, hi,
    List.getElem?_eq_getElem hlt', hloc i _ _ hi (List.getElem?_eq_getElem hlt'), hd, ?_⟩
  unfold assembleText
  simp only [hs, hp, ha]

example : ∃ tokens, scan "a.s".toList "ld v0, .\n".toList = .ret tokens ∧ ∃ names t, parse tokens = .ret (.error (.unexpectedToken names t)) :=
  ⟨_, rfl, _, _, rfl⟩

example : assembleText (ToolExample.env []) "c8s".toList "a.s".toList "o".toList "cls\n  ld v0, nowhere\n".toList =
    ⟨[.printed "a.s:2:3-4: error: Unable to resolve label nowhere.\n".toList], .code 1⟩ := by decide +kernel

end C8S
