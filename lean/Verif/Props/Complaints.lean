import Verif.Proofs.Complaints
import Verif.Props.Tool
import Verif.Props.Parser
import Verif.Props.Scanner

/- Property C81: what the messages say is the case. -/

namespace C8S

open Spec

/-! ### C81 -/

/-- C81: a program that is not valid is rejected with one message, which names the location of a statement and says
something that is the case of it. -/
theorem C81_semantic [Target] (env : Env) (program input output text : Str) (tokens : List Token) (nodes : List Node)
    (hs : scan input text = .ret tokens) (hp : parse tokens = .ret (.ok nodes)) (hv : ∀ labels, ¬ Valid nodes labels) :
    ∃ loc message, Complaint nodes loc message ∧ assembleText env program input output text =
      ⟨[.printed (say [shownLoc loc, ": error: ".toList, message, "\n".toList])], .code 1⟩ := by
  have hprog := (parse_ok_iff _ _).1 hp
  obtain ⟨e, ha⟩ := C34_invalid nodes (program_registers hprog) hv
  obtain ⟨loc, message, hc, hd⟩ := complaint_of_error (program_registers hprog) ha
  refine ⟨loc, message, hc, ?_⟩
  unfold assembleText
  simp only [hs, hp, ha, hd, say_cons, say_nil, List.append_assoc, List.append_nil]

/-- Both hypotheses of C81 on a program with an undefined label, and the message. -/
example (env : Env) : assembleText env "c8s".toList "f".toList "-".toList "cls\njp a\n".toList =
    ⟨[.printed "f:2:1-2: error: Unable to resolve label a.\n".toList], .code 1⟩ := by rfl

example (env : Env) : assembleText env "c8s".toList "f".toList "-".toList "ld v1, $123\n".toList =
    ⟨[.printed "f:1:1-2: error: Found 12-bit numeric value $123, expecting 8-bit value.\n".toList], .code 1⟩ := by rfl

example (env : Env) : assembleText env "c8s".toList "f".toList "-".toList "sknp i, [i], 31\n".toList =
    ⟨[.printed ("f:1:1-4: error: No matching instruction: sknp register:index, register-indirect:[index], " ++
      "literal:$1f.\n").toList], .code 1⟩ := by rfl

example (env : Env) : assembleText env "c8s".toList "f".toList "-".toList ".org 1, 2\n".toList =
    ⟨[.printed "f:1:2-4: error: Incorrect number of parameters (2) for directive .org, expecting 1.\n".toList],
      .code 1⟩ := by rfl

/-- C81: each of these messages, where it is the case, is a reason to reject the program. -/
theorem C81_justified (nodes : List Node) (loc : Loc) (message : Str) (h : Complaint nodes loc message)
    (labels : LabelMap) : ¬ Valid nodes labels := complaint_invalid h labels

example : Complaint [.instruction ⟨"f".toList, 1, 1, 2⟩ "jp".toList [.identifier "a".toList]] ⟨"f".toList, 1, 1, 2⟩
    "Unable to resolve label a.".toList := by
  have h : Selects ⟨"1nnn".toList, "jp".toList, [.addr]⟩ "jp".toList [.identifier "a".toList] :=
    ⟨by decide +kernel, Spec.SameWord.refl _, .cons .addrId .nil⟩
  exact Complaint.undefinedLabel (m := "jp".toList) (name := "a".toList) (by simp) h (by simp) (by simp [labelNames])

/-- C81: a file that is not a program is rejected with a message that shows a token or a piece of text that cannot come
where it is, or that the file ends too early, and names the kinds of tokens that can come there (but for newlines,
comments, commas and label markers). -/
theorem C81_syntax [Target] (env : Env) (program input output text : Str) (tokens : List Token)
    (hs : scan input text = .ret tokens) (hp : ¬ ∃ ns, Program tokens ns) :
    ∃ message, SyntaxReport input text tokens message ∧
      assembleText env program input output text = ⟨[.printed message], .code 1⟩ := by
  obtain ⟨e, he⟩ := (C11_rejects tokens).2 hp
  have hd : ∀ {message : Str}, e.display = .ret message → assembleText env program input output text =
      ⟨[.printed (message ++ "\n".toList)], .code 1⟩ := by
    intro message hm
    unfold assembleText
    simp only [hs, he, hm]
  have hx := C54_expected tokens e he
  have hk := expectations_of_error he
  cases e with
  | unexpectedEndOfFile names =>
    obtain ⟨h1, h2, h3⟩ := C15_end tokens names he
    obtain ⟨m, hm, e⟩ := eof_display h3
    exact ⟨_, .endOfFile h1 h2 ⟨hk, C54_end_iff tokens names he⟩, by rw [hd hm, e]⟩
  | unexpectedToken names t =>
    obtain ⟨pre, post, rfl, h1, h2, h3⟩ := hx
    obtain ⟨_, _, _, _, _, hne⟩ := C15_token _ names t he
    have hf : MayFollow pre names := ⟨hk, C54_token_iff pre post names t h1 h2 he⟩
    by_cases ht : ∃ e l, t = .error e l
    · obtain ⟨e, l, rfl⟩ := ht
      have hpost := C08_error_last input text _ pre post e l hs rfl
      subst hpost
      obtain ⟨sk, rest, htext, hc, hl1, hl2, hl3⟩ := lexical_complaint ((scan_iff_lex _ _ _).1 hs) (e := e) (l := l) (by simp)
      obtain ⟨m, hm, em⟩ := lexical_display hne e l
      exact ⟨_, .lexical rfl h1 hf htext hc hl1 (by simpa using hl2) (by simpa using hl3), by rw [hd hm, em]⟩
    · obtain ⟨shown, hsh⟩ := shownToken_exists (t := t) (fun e l h => ht ⟨e, l, h⟩)
      obtain ⟨m, hm, em⟩ := token_display hne hsh
      exact ⟨_, .token rfl h1 h2 hsh hf, by rw [hd hm, em]⟩

example (env : Env) : assembleText env "c8s".toList "f".toList "-".toList "cls\n  , cls\n".toList =
    ⟨[.printed ("f:2:3: error: Unexpected token found: comma, expecting one of: directive marker, " ++
      "identifier.\n").toList], .code 1⟩ := by rfl

set_option maxRecDepth 4000 in
example (env : Env) : assembleText env "c8s".toList "f".toList "-".toList "jp 9999\n".toList =
    ⟨[.printed ("f:1:4-7: error: Encountered syntax error: Decimal literal 9999 not in range (0...4095).\n" ++
      "f:1:4-7: error: Expecting instruction field.\n").toList], .code 1⟩ := by rfl

example (env : Env) : assembleText env "c8s".toList "f".toList "-".toList ".db 1,".toList =
    ⟨[.printed ("error: Unexpected end-of-file reached, expecting one of: numeric literal, string literal.\n").toList],
      .code 1⟩ := by rfl

/-- C81: of a directive of exactly 4096 bytes the tool says that its size exceeds 4096 bytes, which is not the case; it
is at fault all the same, since the address after it is above $FFF. -/
theorem C81_not_larger (loc : Loc) (name : Str) (args : List Literal) (bytes : List U8) (rest : List Node)
    (h : DirectiveMeans name args (.db bytes)) (hn : bytes.length = 4096) :
    ∃ e, assemble (.directive loc name args :: rest) = .ret (.error e) ∧ e.display = say [shownLoc loc,
      ": error: Directive (.db [4096 bytes]) size 4096 exceeds 4096 bytes.".toList] := by
  refine ⟨.directiveTooLarge loc (.db bytes), ?_, ?_⟩
  · have : defineLabels (.directive loc name args :: rest) = .error (.directiveTooLarge loc (.db bytes)) :=
      (C51_first_fault _ _).2 ⟨[], _, rest, rfl, clean_nil, .tooLarge h (by omega)⟩
    unfold assemble
    simp only [this]
  · have e1 : showDec 4096 = "4096".toList := by decide
    simp only [SemanticError.display, Directive.display, Directive.size, shownLoc_eq, say_cons, say_nil, hn, e1,
      List.append_assoc, List.append_nil]
    rfl

theorem emitsAll_zeros (n : Nat) : EmitsAll (List.replicate n (.numeric 0)) (List.replicate n 0) := by
  induction n with
  | zero => exact .nil
  | succ n ih => exact .number (b := 0) ih

example : DirectiveMeans "db".toList (List.replicate 4096 (.numeric 0)) (.db (List.replicate 4096 0)) ∧
    (List.replicate 4096 (0 : U8)).length = 4096 :=
  ⟨.db (Spec.SameLetters.refl _) (List.ne_nil_of_length_pos (by rw [List.length_replicate]; omega)) (emitsAll_zeros 4096), List.length_replicate⟩

end C8S
