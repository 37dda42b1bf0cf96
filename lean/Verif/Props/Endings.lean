import Verif.Proofs.Endings
import Verif.Props.Source

/- Properties on line endings: C70. -/

namespace C8S

open Spec

local instance decEqEnding {α β : Type} [DecidableEq α] [DecidableEq β] : DecidableEq (Except α β)
  | .ok a, .ok b => if h : a = b then isTrue (by rw [h]) else isFalse (fun e => h (Except.ok.inj e))
  | .error a, .error b => if h : a = b then isTrue (by rw [h]) else isFalse (fun e => h (Except.error.inj e))
  | .ok _, .error _ => isFalse nofun
  | .error _, .ok _ => isFalse nofun

namespace EndingsExample

def text : Str := "here: ; x\n\njp here\n.db \"ab\"\n".toList

def tokens (c : Str) (n : Nat) : List Token :=
  [.identifier "here".toList ⟨[], 1, 1, 4⟩, .labelMarker ⟨[], 1, 5, 1⟩, .singleLineComment c ⟨[], 1, 7, c.length⟩,
    .newline ⟨[], 1, 7 + c.length, 1⟩, .newline ⟨[], 2, 1 + n, 1⟩, .identifier "jp".toList ⟨[], 3, 1, 2⟩,
    .identifier "here".toList ⟨[], 3, 4, 4⟩, .newline ⟨[], 3, 8 + n, 1⟩, .directiveMarker ⟨[], 4, 1, 1⟩,
    .identifier "db".toList ⟨[], 4, 2, 2⟩, .stringLiteral "ab".toList ⟨[], 4, 5, 4⟩, .newline ⟨[], 4, 9 + n, 1⟩]

theorem facts : scan [] text = .ret (tokens "; x".toList 0) ∧ scan [] (crlf text) = .ret (tokens "; x\r".toList 1) ∧
    StringsOnOneLine (tokens "; x".toList 0) ∧ StringsOnOneLine (tokens "; x\r".toList 1) ∧
    parse (tokens "; x\r".toList 1) = parse (tokens "; x".toList 0) ∧
    parse (tokens "; x".toList 0) = .ret (.ok [.label ⟨[], 1, 1, 4⟩ "here".toList,
      .instruction ⟨[], 3, 1, 2⟩ "jp".toList [.identifier "here".toList],
      .directive ⟨[], 4, 2, 2⟩ "db".toList [.string "ab".toList]]) := by
  refine ⟨by decide +kernel, by decide +kernel, ?_, ?_, by decide +kernel, by decide +kernel⟩
  · intro s l h
    simp [tokens] at h
    rw [h.1]
    decide
  · intro s l h
    simp [tokens] at h
    rw [h.1]
    decide

end EndingsExample

/-- C70: a text that parses, with no string over several lines, parses to the same statements, at the same
locations, if its lines end with a carriage return and a newline. -/
theorem C70_statements [Target] (file text : Str) (tokens : List Token) (ns : List Node) (hs : scan file text = .ret tokens)
    (hp : parse tokens = .ret (.ok ns)) (h1 : StringsOnOneLine tokens) :
    ∃ tokens', scan file (crlf text) = .ret tokens' ∧ StringsOnOneLine tokens' ∧ parse tokens' = .ret (.ok ns) := by
  have hp' := (parse_ok_iff _ _).1 hp
  obtain ⟨ts', h2, h3⟩ := lex_crlf ((scan_iff_lex _ _ _).1 hs) [] ⟨rfl, rfl⟩
  rcases h3 with h3 | h3
  · exact ⟨ts', (scan_iff_lex _ _ _).2 h2, alikeAll_strings h3 h1, (parse_ok_iff _ _).2 (program_alike hp' h3)⟩
  · exact (h3.2 ⟨h1, program_no_error hp'⟩).elim

example : ∃ tokens', scan [] (crlf EndingsExample.text) = .ret tokens' ∧ StringsOnOneLine tokens' ∧
    parse tokens' = .ret (.ok [.label ⟨[], 1, 1, 4⟩ "here".toList,
      .instruction ⟨[], 3, 1, 2⟩ "jp".toList [.identifier "here".toList],
      .directive ⟨[], 4, 2, 2⟩ "db".toList [.string "ab".toList]]) :=
  have ⟨h1, _, h3, _, _, h6⟩ := EndingsExample.facts
  C70_statements _ _ _ _ h1 h6 h3

/-- C70: and the other way: removing the carriage returns before newlines, if there is no string over several
lines, keeps the statements and their locations. -/
theorem C70_removed [Target] (file text : Str) (tokens' : List Token) (ns : List Node) (hs : scan file (crlf text) = .ret tokens')
    (hp : parse tokens' = .ret (.ok ns)) (h1 : StringsOnOneLine tokens') :
    ∃ tokens, scan file text = .ret tokens ∧ StringsOnOneLine tokens ∧ parse tokens = .ret (.ok ns) := by
  obtain ⟨tokens, h0⟩ := lex_exists file [] text
  obtain ⟨ts', h2, h3⟩ := lex_crlf h0 [] ⟨rfl, rfl⟩
  cases lex_unique h2 ((scan_iff_lex _ _ _).1 hs)
  rcases h3 with h3 | h3
  · have h3 := alikeAll_symm h3
    exact ⟨tokens, (scan_iff_lex _ _ _).2 h0, alikeAll_strings h3 h1,
      (parse_ok_iff _ _).2 (program_alike ((parse_ok_iff _ _).1 hp) h3)⟩
  · exact (h3.1 h1).elim

example : ∃ tokens, scan [] EndingsExample.text = .ret tokens ∧ StringsOnOneLine tokens ∧ ∃ ns, parse tokens = .ret (.ok ns) :=
  have ⟨_, h2, _, h4, h5, h6⟩ := EndingsExample.facts
  have ⟨t, h7, h8, h9⟩ := C70_removed _ _ _ _ h2 (h5.trans h6) h4
  ⟨t, h7, h8, _, h9⟩

/-- C70: hence a text and the same text with carriage returns have the same output. -/
theorem C70_output [Target] (file text : Str) (tokens tokens' : List Token) (hs : scan file text = .ret tokens)
    (hs' : scan file (crlf text) = .ret tokens') (h : StringsOnOneLine tokens) (h' : StringsOnOneLine tokens')
    (bytes : List (Nat × U8)) :
    Describes wordBinary file text bytes ↔ Describes wordBinary file (crlf text) bytes := by
  rw [describes_iff, describes_iff]
  constructor
  · rintro ⟨t, ns, ranges, e, hp, ha, hb⟩
    cases hs.symm.trans e
    obtain ⟨t', e', _, hp'⟩ := C70_statements file text tokens ns hs hp h
    exact ⟨t', ns, ranges, e', hp', ha, hb⟩
  · rintro ⟨t, ns, ranges, e, hp, ha, hb⟩
    cases hs'.symm.trans e
    obtain ⟨t', e', _, hp'⟩ := C70_removed file text tokens' ns hs' hp h'
    exact ⟨t', ns, ranges, e', hp', ha, hb⟩

example (bytes : List (Nat × U8)) : Describes wordBinary [] EndingsExample.text bytes ↔
    Describes wordBinary [] (crlf EndingsExample.text) bytes :=
  have ⟨h1, h2, h3, h4, _⟩ := EndingsExample.facts
  C70_output _ _ _ _ h1 h2 h3 h4 _

/-- C70: a string over two lines is different: it has one byte more with carriage returns. -/
theorem C70_needs_one_line : ∃ text bytes, Describes wordBinary [] text bytes ∧
    ¬ Describes wordBinary [] (crlf text) bytes := by
  refine ⟨".db \"\n\"\n".toList, [(0, 10)], ?_, ?_⟩
  · rw [describes_iff]
    exact ⟨[.directiveMarker ⟨[], 1, 1, 1⟩, .identifier "db".toList ⟨[], 1, 2, 2⟩,
      .stringLiteral "\n".toList ⟨[], 1, 5, 2⟩, .newline ⟨[], 2, 2, 1⟩],
      [.directive ⟨[], 1, 2, 2⟩ "db".toList [.string "\n".toList]], [⟨0, [10]⟩], by decide +kernel, by decide +kernel, by decide +kernel, by decide +kernel⟩
  · rw [describes_iff]
    rintro ⟨tokens, ns, ranges, h1, h2, h3, h4⟩
    have e1 : scan [] (crlf ".db \"\n\"\n".toList) = .ret [.directiveMarker ⟨[], 1, 1, 1⟩,
      .identifier "db".toList ⟨[], 1, 2, 2⟩, .stringLiteral "\r\n".toList ⟨[], 1, 5, 3⟩,
      .newline ⟨[], 2, 3, 1⟩] := by decide +kernel
    cases e1.symm.trans h1
    have e2 : parse [.directiveMarker ⟨[], 1, 1, 1⟩,
      .identifier "db".toList ⟨[], 1, 2, 2⟩, .stringLiteral "\r\n".toList ⟨[], 1, 5, 3⟩,
      .newline ⟨[], 2, 3, 1⟩] = .ret (.ok [.directive ⟨[], 1, 2, 2⟩ "db".toList [.string "\r\n".toList]]) := by
      decide +kernel
    cases e2.symm.trans h2
    have e3 : assemble [.directive ⟨[], 1, 2, 2⟩ "db".toList [.string "\r\n".toList]] = .ret (.ok [⟨0, [13, 10]⟩]) := by
      decide +kernel
    cases e3.symm.trans h3
    exact absurd h4 (by decide)

/-- A backslash at the end of a line in a string is malformed, but may stand before a carriage return. -/
example : scan [] "\"\\\n\"".toList = .ret [.error .invalidStringLiteral ⟨[], 1, 1, 1⟩] ∧
    scan [] (crlf "\"\\\n\"".toList) = .ret [.stringLiteral "\\\r\n".toList ⟨[], 1, 1, 4⟩] := by
  exact ⟨by decide +kernel, by decide +kernel⟩

end C8S
