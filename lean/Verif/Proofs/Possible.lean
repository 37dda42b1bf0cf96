import Verif.Spec.Possible
import Verif.Proofs.Packed
import Verif.Proofs.ByLine
import Verif.Proofs.Image
import Verif.Proofs.Edit
import Verif.Props.Source
import Verif.Props.Crash

/- Lemmas for C120. -/

namespace C8S

open Spec Parser

section

variable [Target]

theorem lex_possible {file before text : Str} {ts : List Token} (h : Lex wordBinary file before text ts) :
    ∀ t ∈ ts, TokenPossible t := by
  induction h with
  | done _ => simp
  | token _ hL hE _ ih =>
    intro t ht
    rcases List.mem_cons.1 ht with rfl | ht
    · exact .token hL.1 hE
    · exact ih t ht
  | @outOfRange _ _ s _ k _ hL hE =>
    intro t ht
    rw [List.mem_singleton] at ht
    subst ht
    obtain ⟨e, rfl⟩ := hE
    refine .error ?_
    generalize hk : Token.error e = k at hL
    have hL := hL.1
    cases hL with
    | decimalRange h1 h2 h3 => cases congrFun hk noLoc; exact .decimalRange h1 h2 h3
    | binaryRange h1 h2 h3 => cases congrFun hk noLoc; exact .binaryRange h1 h2 h3
    | _ => cases congrFun hk noLoc
  | @malformed _ _ rest c e _ hb hn hm =>
    intro t ht
    rw [List.mem_singleton] at ht
    subst ht
    refine .error ?_
    cases hm with
    | string => exact .string
    | hex _ => exact .hex
    | binary => exact .binary
    | indirect => exact .indirect
    | other h1 h2 h3 h4 h5 =>
      have one : ∀ k, ¬ Lexeme wordBinary [c] k := fun k => hn [c] rest k rfl
      have hnl : c ≠ '\n' := by rintro rfl; exact one _ .newline
      refine .character (fun hw => hb ⟨hw, hnl⟩) (fun h => one _ (.name h (by simp))) ?_ ?_
      · intro h
        by_cases hv : positional 10 [c] ≤ 4095
        · exact one _ (.decimal (by simp) (by simpa using h) hv)
        · exact one _ (.decimalRange (by simp) (by simpa using h) (by omega))
      · intro hc
        simp only [List.mem_cons, List.not_mem_nil, or_false] at hc
        rcases hc with rfl | rfl | rfl | rfl | rfl | rfl | rfl | rfl | rfl
        · exact one _ .comma
        · exact one _ .labelMarker
        · exact one _ .directiveMarker
        · exact one _ (.comment (s := []) (by simp))
        all_goals simp at h1 h2 h3 h4 h5

theorem lex_bad {file before : Str} {c : Char} {e : ScanError} (hb : ¬ Blank c) (hn : ∀ k, ¬ Lexeme wordBinary [c] k)
    (hm : Malformed c e) : Lex wordBinary file before [c] [.error e (locate file (before ++ []) [c])] := by
  refine .malformed (blanks := []) (rest := []) (by simp) hb ?_ hm
  intro s r k e
  rcases s with _ | ⟨d, s⟩
  · intro h
    exact lexeme_ne_nil h rfl
  · simp only [List.cons_append, List.cons.injEq, List.append_eq_nil_iff] at e
    obtain ⟨rfl, rfl, rfl⟩ := e
    exact hn k

/-- A text that is just this token. -/
theorem possible_lex {t : Token} (h : TokenPossible t) :
    ∃ s, ∀ file before, ∃ t', bare t' = bare t ∧ Lex wordBinary file before s [t'] := by
  cases h with
  | @token s k l hL hE =>
    refine ⟨s, fun file before => ⟨_, ?_, by
      simpa using Lex.token (blanks := []) (rest := []) (by simp) (longest_runsOn.2 ⟨hL, by simp⟩) hE (.done (by simp))⟩⟩
    rw [bare, lexeme_mapLoc hL, lexeme_mapLoc hL]
    rfl
  | @error e l h =>
    have over : ∀ (s : Str) (e : ScanError), Lexeme wordBinary s (.error e) → ∃ s, ∀ file before, ∃ t',
        bare t' = bare (.error e l) ∧ Lex wordBinary file before s [t'] := fun s e hL =>
      ⟨s, fun file before => ⟨.error e (locate file before s), rfl, by
        simpa using Lex.outOfRange (file := file) (before := before) (blanks := []) (rest := []) (by simp) (longest_runsOn.2 ⟨hL, by simp⟩) ⟨e, rfl⟩⟩⟩
    have bad : ∀ (c : Char) (e : ScanError), ¬ Blank c → (∀ k, ¬ Lexeme wordBinary [c] k) → Malformed c e → ∃ s, ∀ file before,
        ∃ t', bare t' = bare (.error e l) ∧ Lex wordBinary file before s [t'] := fun c e h1 h2 h3 =>
      ⟨[c], fun file before => ⟨.error e (locate file (before ++ []) [c]), rfl, lex_bad h1 h2 h3⟩⟩
    cases h with
    | string =>
      refine bad '"' _ (by decide) (fun k h => ?_) .string
      obtain ⟨s, e, _⟩ := lexeme_string h
      simp at e
    | hex => exact bad '$' _ (by decide) (fun k h => (lexeme_hex (.inl rfl) h).1 rfl) (.hex (.inl rfl))
    | binary => exact bad '%' _ (by decide) (fun k h => (lexeme_binary h).1 rfl) .binary
    | indirect =>
      refine bad '[' _ (by decide) (fun k h => ?_) .indirect
      rcases (lexeme_indirect h).1 with h | h <;> cases h
    | @character c h1 h2 h3 h4 =>
      simp only [List.mem_cons, List.not_mem_nil, or_false, not_or] at h4
      obtain ⟨g1, g2, g3, g4, g5, g6, g7, g8, g9⟩ := h4
      have hnl : c ≠ '\n' := by rintro rfl; exact h1 (by decide)
      refine bad c _ (fun h => h1 h.1) (fun k h => ?_) (.other g5 g6 g7 g8 g9)
      rcases lexeme_cons h with h | h | h | h | h | h | h | h | h | h | h
      · exact hnl h.1
      · exact g1 h.1
      · exact g2 h.1
      · exact g3 h.1
      · exact g4 h.1
      · exact h2 h.1
      · exact g9 h.1
      · exact g5 h.1
      · exact h.1.elim g6 g7
      · exact h3 h.1
      · exact g8 h.1
    | decimalRange h1 h2 h3 => exact over _ _ (.decimalRange h1 h2 h3)
    | binaryRange h1 h2 h3 => exact over _ _ (.binaryRange h1 h2 h3)

theorem longest_mark {c : Char} {rest : Str} {k : Loc → Token} (h : Lexeme wordBinary [c] k)
    (hc : c ∈ [',', '.']) : Longest wordBinary [c] rest k := by
  refine longest_runsOn.2 ⟨h, fun d _ => ?_⟩
  simp only [List.mem_cons, List.not_mem_nil, or_false] at hc
  rcases hc with rfl | rfl
  all_goals
    rintro (⟨h, _⟩ | ⟨h, _⟩ | ⟨h, _⟩ | ⟨h, _⟩ | ⟨h, _⟩)
    all_goals exact absurd h (by decide)

/-- The token in every place. -/
theorem spot_lex {s : Str} {t : Token}
    (h : ∀ file before, ∃ t', bare t' = bare t ∧ Lex wordBinary file before s [t']) (p : Spot) :
    ∃ text tokens t', Lex wordBinary [] [] text tokens ∧ bare t' = bare t ∧ tokens = (match p with
      | .statement => [t']
      | .name => [.directiveMarker (locate [] [] ['.']), t']
      | .argument => [.directiveMarker (locate [] [] ['.']), .identifier ['a'] (locate [] ['.'] ['a']),
        .numericLiteral 1 (locate [] ['.', 'a', ' '] ['1']), .comma (locate [] ['.', 'a', ' ', '1'] [',']), t']
      | .operand => [.identifier ['a'] (locate [] [] ['a']), .numericLiteral 1 (locate [] ['a', ' '] ['1']),
        .comma (locate [] ['a', ' ', '1'] [',']), t']) := by
  have dot : ¬ IsError Token.directiveMarker := fun ⟨e, h⟩ => by cases congrFun h noLoc
  have comma : ¬ IsError Token.comma := fun ⟨e, h⟩ => by cases congrFun h noLoc
  have ident : ¬ IsError (Token.identifier ['a']) := fun ⟨e, h⟩ => by cases congrFun h noLoc
  have num : ¬ IsError (Token.numericLiteral 1) := fun ⟨e, h⟩ => by cases congrFun h noLoc
  have one : ∀ rest, Longest wordBinary ['1'] (',' :: rest) (.numericLiteral 1) := fun rest =>
    longest_runsOn.2 ⟨.decimal (s := ['1']) (by simp) (by decide) (by decide), fun d e => by cases e; decide⟩
  have name : ∀ rest, Longest wordBinary ['a'] (' ' :: rest) (.identifier ['a']) := fun rest =>
    longest_runsOn.2 ⟨.name (by decide) (by simp), fun d e => by cases e; decide⟩
  cases p with
  | statement =>
    obtain ⟨t', e, hl⟩ := h [] []
    exact ⟨s, _, t', hl, e, rfl⟩
  | name =>
    obtain ⟨t', e, hl⟩ := h [] ['.']
    exact ⟨'.' :: s, _, t', .token (blanks := []) (s := ['.']) (by simp) (longest_mark .directiveMarker (by decide)) dot hl, e, rfl⟩
  | argument =>
    obtain ⟨t', e, hl⟩ := h [] ['.', 'a', ' ', '1', ',']
    exact ⟨'.' :: 'a' :: ' ' :: '1' :: ',' :: s, _, t',
      .token (blanks := []) (s := ['.']) (by simp) (longest_mark .directiveMarker (by decide)) dot
      (.token (blanks := []) (s := ['a']) (by simp) (name _) ident
      (.token (blanks := [' ']) (s := ['1']) (by decide) (one _) num
      (.token (blanks := []) (s := [',']) (by simp) (longest_mark .comma (by decide)) comma hl))), e, rfl⟩
  | operand =>
    obtain ⟨t', e, hl⟩ := h [] ['a', ' ', '1', ',']
    exact ⟨'a' :: ' ' :: '1' :: ',' :: s, _, t',
      .token (blanks := []) (s := ['a']) (by simp) (name _) ident
      (.token (blanks := [' ']) (s := ['1']) (by decide) (one _) num
      (.token (blanks := []) (s := [',']) (by simp) (longest_mark .comma (by decide)) comma hl)), e, rfl⟩

theorem possible_bare {t t' : Token} (h : TokenPossible t) (e : bare t' = bare t) : TokenPossible t' := by
  cases h with
  | @token s k l hL hE =>
    have hL' := hL
    cases hL <;> cases t' <;> cases e <;> exact .token hL' hE
  | error h => cases t' <;> cases e; exact .error h

omit [Target] in
theorem takes_bare {p : Spot} {t t' : Token} (h : p.Takes t) (e : bare t' = bare t) : p.Takes t' := by
  cases t <;> cases t' <;> cases e <;> cases p <;> revert h <;> simp [Spot.Takes, IsNewline, IsComment]

omit [Target] in
/-- The syntax errors of the parser, for any tokens. -/
theorem outcome_possible {tokens : List Token} {out : Except ParseError (List Node)} (h : ParseOutcome tokens out) {e : ParseError}
    (he : out = .error e) : (∃ p t, t ∈ tokens ∧ ¬ Spot.Takes p t ∧ e = .unexpectedToken p.names t) ∨
      ∃ p, p ≠ Spot.statement ∧ e = .unexpectedEndOfFile p.names := by
  have lift : ∀ {ts us : List Token}, (∀ t ∈ ts, t ∈ us) →
      ((∃ p t, t ∈ ts ∧ ¬ Spot.Takes p t ∧ e = .unexpectedToken p.names t) ∨
        ∃ p, p ≠ Spot.statement ∧ e = .unexpectedEndOfFile p.names) →
      (∃ p t, t ∈ us ∧ ¬ Spot.Takes p t ∧ e = .unexpectedToken p.names t) ∨
        ∃ p, p ≠ Spot.statement ∧ e = .unexpectedEndOfFile p.names := by
    rintro ts us hs (⟨p, t, h1, h2, h3⟩ | h)
    · exact .inl ⟨p, t, hs t h1, h2, h3⟩
    · exact .inr h
  have back : ∀ {out : Except ParseError (List Node)} {f : List Node → List Node}, out.map f = .error e → out = .error e := by
    intro out f h
    cases out with
    | ok _ => cases h
    | error _ => cases h; rfl
  induction h with
  | empty => cases he
  | blank _ _ ih => exact lift (fun t h => by simp [h]) (ih he)
  | label _ ih => exact lift (fun t h => by simp [h]) (ih (back he))
  | directive hi _ ih =>
    obtain ⟨b, used, rfl, _⟩ := itemList_ok _ (Nat.le_refl _) hi
    exact lift (fun t h => by simp [h]) (ih (back he))
  | directiveError hi =>
    cases he
    obtain ⟨used, xs, _, ⟨_, rfl⟩ | ⟨t, post, rfl, h1, h2, rfl⟩⟩ := itemList_error _ (Nat.le_refl _) hi
    · exact .inr ⟨.argument, by simp, rfl⟩
    · refine .inl ⟨.argument, t, by simp, ?_, rfl⟩
      rintro (⟨l, rfl⟩ | ⟨n, l, rfl⟩ | ⟨s, l, rfl⟩)
      · cases h2
      · cases h1
      · cases h1
  | directiveEnd =>
    cases he
    exact .inr ⟨.name, by simp, rfl⟩
  | @directiveName _ t _ ht =>
    cases he
    refine .inl ⟨.name, t, by simp, ?_, rfl⟩
    rintro ⟨s, l, rfl⟩
    cases ht
  | instruction _ hi _ ih =>
    obtain ⟨b, used, rfl, _⟩ := itemList_ok _ (Nat.le_refl _) hi
    exact lift (fun t h => by simp [h]) (ih (back he))
  | instructionError _ hi =>
    cases he
    obtain ⟨used, xs, _, ⟨_, rfl⟩ | ⟨t, post, rfl, h1, h2, rfl⟩⟩ := itemList_error _ (Nat.le_refl _) hi
    · exact .inr ⟨.operand, by simp, rfl⟩
    · refine .inl ⟨.operand, t, by simp, ?_, rfl⟩
      rintro (⟨l, rfl⟩ | ⟨c, l, rfl⟩ | ⟨n, l, rfl⟩ | ⟨s, l, rfl⟩)
      · cases h2
      · cases h2
      · cases h1
      · obtain ⟨f, hf, _⟩ := fieldOfIdentifier_ret s
        simp [fieldItem, hf] at h1
  | @statement t _ h1 h2 =>
    cases he
    refine .inl ⟨.statement, t, by simp, ?_, rfl⟩
    rintro (⟨l, rfl⟩ | ⟨c, l, rfl⟩ | ⟨l, rfl⟩ | ⟨s, l, rfl⟩)
    · cases h1
    · cases h1
    · cases h2
    · cases h2

/-- A report for statements is one for a text. -/
theorem reported_text {ns : List Node} {e : SemanticError} (hf : ∀ n ∈ ns, Formed n) (h : assemble ns = .ret (.error e)) :
    ∃ file text tokens nodes e', scan file text = .ret tokens ∧ parse tokens = .ret (.ok nodes) ∧
      assemble nodes = .ret (.error e') ∧ semanticErrorMap nowhere e' = semanticErrorMap nowhere e := by
  obtain ⟨tokens, nodes, h1, h2, hb⟩ := C13_round_trip [] ns hf
  have h3 := assemble_map nowhere h
  have h4 := assemble_run nowhere nodes
  rw [show nodes.map (nodeMap nowhere) = ns.map (nodeMap nowhere) from hb, h3] at h4
  cases ha : assemble nodes with
  | panic => rw [ha] at h4; cases h4
  | ret out =>
    rw [ha] at h4
    cases out with
    | ok r => cases h4
    | error e' =>
      refine ⟨[], _, tokens, nodes, e', h1, h2, ha, ?_⟩
      simp only [runMap, assembledMap, Run.ret.injEq, Except.error.injEq] at h4
      exact h4.symm

end

theorem directive_possible {name : Str} {args : List Literal} {e : DirectiveError} (hn : IsName name)
    (ha : ∀ x ∈ args, ArgumentFormed x) (h : DirectiveFails name args e) : DirectivePossible e := by
  cases h with
  | count h1 _ h3 => exact .count h1 h3
  | string h1 _ => exact .notNumber h1
  | range h1 _ _ => exact .notNumber h1
  | dbEmpty _ => exact .noBytes
  | dbByte _ _ h3 => exact .noByte h3 (ha (.numeric _) (by simp))
  | unknown h1 h2 h3 => exact .unknown hn h1 h2 h3

theorem possible_directive {e : DirectiveError} (h : DirectivePossible e) :
    ∃ name args, IsName name ∧ (∀ x ∈ args, ArgumentFormed x) ∧ DirectiveFails name args e := by
  have plain : ∀ name : Str, name = "org".toList ∨ name = "equ".toList ∨ name = "db".toList → IsName name := by
    rintro name (rfl | rfl | rfl) <;> exact .inl ⟨_, _, rfl, by decide, by decide⟩
  have same : ∀ name : Str, name = "org".toList ∨ name = "equ".toList ∨ name = "db".toList → SameLetters name name := by
    rintro name (rfl | rfl | rfl) <;> decide
  have either : ∀ {name : Str}, name = "org".toList ∨ name = "equ".toList →
      name = "org".toList ∨ name = "equ".toList ∨ name = "db".toList := fun h => h.imp id .inl
  cases h with
  | @count name n h1 h2 =>
    refine ⟨name, List.replicate n (.numeric 0), plain _ (either h1), ?_, ?_⟩
    · intro x hx
      rw [List.eq_of_mem_replicate hx]
      exact Nat.zero_le _
    · have := DirectiveFails.count (args := List.replicate n (.numeric 0)) h1 (same name (either h1)) (by simpa using h2)
      simpa using this
  | noBytes => exact ⟨_, [], plain _ (.inr (.inr rfl)), by simp, .dbEmpty (same _ (.inr (.inr rfl)))⟩
  | @notNumber name h1 =>
    exact ⟨name, [.string []], plain _ (either h1), by simp [ArgumentFormed, StringBody.nil],
      .string h1 (same _ (either h1))⟩
  | @noByte n h1 h2 =>
    exact ⟨_, [.numeric n], plain _ (.inr (.inr rfl)), by simpa [ArgumentFormed] using h2,
      .dbByte (before := []) (after := []) (same _ (.inr (.inr rfl))) .nil h1⟩
  | unknown h1 h2 h3 h4 => exact ⟨_, [], h1, by simp, .unknown h2 h3 h4⟩

theorem instruction_possible {labels : LabelMap} {m : Str} {fields : List Field} {e : InstructionError} (hm : IsName m)
    (hf : ∀ f ∈ fields, OperandFormed f) (h : InstructionFails labels m fields e) : InstructionPossible e := by
  have small : ∀ {f : Field} {v : Nat}, Denotes labels f v → v ≤ 4095 := by
    intro f v h
    cases h <;> omega
  cases h with
  | unresolved _ h2 _ =>
    obtain ⟨h, h'⟩ := hf _ h2
    exact .label h h'
  | eightBit _ _ _ h4 h5 => exact .eight h5 (small h4)
  | fourBit _ _ _ h4 h5 => exact .four h5 (small h4)
  | noMatch h => exact .none hm hf h

theorem possible_instruction {e : InstructionError} (h : InstructionPossible e) :
    ∃ m fields, IsName m ∧ (∀ f ∈ fields, OperandFormed f) ∧ InstructionFails [] m fields e := by
  have plain : ∀ name : Str, name = "jp".toList ∨ name = "ld".toList ∨ name = "drw".toList → IsName name := by
    rintro name (rfl | rfl | rfl) <;> exact .inl ⟨_, _, rfl, by decide, by decide⟩
  have num : ∀ {n : Nat}, n ≤ 4095 → Denotes [] (.numericLiteral (BitVec.ofNat 12 n)) n := by
    intro n h
    have := Denotes.literal (labels := []) (BitVec.ofNat 12 n)
    rwa [BitVec.toNat_ofNat, Nat.mod_eq_of_lt (by omega)] at this
  cases h with
  | @label name h1 h2 =>
    exact ⟨"jp".toList, [.identifier name], plain _ (.inl rfl), by simpa [OperandFormed] using ⟨h1, h2⟩,
      .unresolved (row := ⟨"1nnn".toList, "jp".toList, [.addr]⟩) ⟨by decide, by decide, .cons .addrId .nil⟩ (by simp) rfl⟩
  | @eight n h1 h2 =>
    exact ⟨"ld".toList, [.generalPurposeRegister 0, .numericLiteral (BitVec.ofNat 12 n)], plain _ (.inr (.inl rfl)),
      by simp [OperandFormed],
      .eightBit (row := ⟨"6xkk".toList, "ld".toList, [.vx, .nn]⟩) ⟨by decide, by decide, .cons .vx (.cons .nnLit .nil)⟩ (by simp)
        (f := .numericLiteral (BitVec.ofNat 12 n)) (by simp) (num h2) h1⟩
  | @four n h1 h2 =>
    exact ⟨"drw".toList, [.generalPurposeRegister 0, .generalPurposeRegister 0, .numericLiteral (BitVec.ofNat 12 n)],
      plain _ (.inr (.inr rfl)), by simp [OperandFormed],
      .fourBit (row := ⟨"Dxyn".toList, "drw".toList, [.vx, .vy, .n]⟩) ⟨by decide, by decide, .cons .vx (.cons .vy (.cons .nLit .nil))⟩
        (by simp) (f := .numericLiteral (BitVec.ofNat 12 n)) (by simp) (num h2) h1⟩
  | none h1 h2 h3 => exact ⟨_, _, h1, h2, .noMatch h3⟩

theorem semantic_possible {nodes : List Node} {e : SemanticError} (hf : ∀ n ∈ nodes, Formed n)
    (h : assemble nodes = .ret (.error e)) : SemanticPossible e := by
  rcases (C104_error nodes e).1 h with ⟨pre, n, post, rfl, hc, hn⟩ | ⟨labels, pre, loc, m, fields, post, reason, _, _, rfl, _, hi, rfl⟩
  · have hf := hf n (by simp)
    cases hn with
    | invalid h' => exact .directive (directive_possible hf.1 hf.2 h')
    | tooLarge _ h' => exact .large h'
    | overflow _ h1 h2 h3 =>
      have := clean_fits hc h2
      exact .overflow (by omega) (by omega)
    | stray _ _ => exact .constant
    | redefined _ => exact .label hf
    | instructionOverflow _ _ => exact .past
  · have hf := hf (.instruction loc m fields) (by simp)
    exact .instruction (instruction_possible hf.1 hf.2 hi)

theorem possible_semantic {e : SemanticError} (h : SemanticPossible e) :
    ∃ nodes e', (∀ n ∈ nodes, Formed n) ∧ assemble nodes = .ret (.error e') ∧
      semanticErrorMap nowhere e' = semanticErrorMap nowhere e := by
  have plain : ∀ name : Str, name = "org".toList ∨ name = "equ".toList ∨ name = "db".toList → IsName name := by
    rintro name (rfl | rfl | rfl) <;> exact .inl ⟨_, _, rfl, by decide, by decide⟩
  have data : ∀ bytes : List U8, Formed (.directive noLoc "db".toList (bytes.map fun b => .numeric b.toNat)) := by
    intro bytes
    refine ⟨plain _ (.inr (.inr rfl)), ?_⟩
    intro x hx
    obtain ⟨b, _, rfl⟩ := List.mem_map.1 hx
    have := b.isLt
    simp only [ArgumentFormed]
    omega
  have means : ∀ bytes : List U8, 1 ≤ bytes.length →
      DirectiveMeans "db".toList (bytes.map fun b => .numeric b.toNat) (.db bytes) := fun bytes hb =>
    .db (by decide) (by intro e; rw [List.map_eq_nil_iff] at e; subst e; simp at hb) (Image.emitsAll_bytes bytes)
  have top : Formed (.directive noLoc "org".toList [.numeric 4095]) := ⟨plain _ (.inl rfl), by simp [ArgumentFormed]⟩
  have ctop : Clean [.directive noLoc "org".toList [.numeric 4095]] := by
    obtain ⟨_, _, hc, _⟩ := assemble_ok_iff.1 (show assemble [.directive noLoc "org".toList [.numeric 4095]] = .ret (.ok []) from rfl)
    exact hc
  cases h with
  | @directive l e h =>
    obtain ⟨name, args, h1, h2, h3⟩ := possible_directive h
    exact ⟨[.directive noLoc name args], .directiveInvalid noLoc e, by simpa [Formed] using ⟨h1, h2⟩,
      (C104_error _ _).2 (.inl ⟨[], _, [], rfl, clean_nil, .invalid h3⟩), rfl⟩
  | @large l bytes h =>
    exact ⟨[.directive noLoc "db".toList (bytes.map fun b => .numeric b.toNat)], .directiveTooLarge noLoc (.db bytes),
      by simpa using data bytes,
      (C104_error _ _).2 (.inl ⟨[], _, [], rfl, clean_nil, .tooLarge (means bytes (by omega)) (by omega)⟩), rfl⟩
  | @overflow l bytes h1 h2 =>
    refine ⟨[.directive noLoc "org".toList [.numeric 4095], .directive noLoc "db".toList (bytes.map fun b => .numeric b.toNat)],
      .directiveWouldOverflow noLoc (.db bytes), by simpa using ⟨top, data bytes⟩,
      (C104_error _ _).2 (.inl ⟨[.directive noLoc "org".toList [.numeric 4095]], _, [], rfl, ctop,
        .overflow (a := 4095) (means bytes h1) (by omega) ?_ (by omega)⟩), rfl⟩
    exact .cons (.org (v := 4095) (.org 4095 (by decide))) .nil
  | constant =>
    exact ⟨[.directive noLoc "equ".toList [.numeric 0]], .constantWithoutLabel noLoc,
      by simpa [Formed, ArgumentFormed] using plain _ (.inr (.inl rfl)), rfl, rfl⟩
  | @label l name h =>
    refine ⟨[.label noLoc name, .label noLoc name], .redefinitionOfLabel noLoc name, by simpa [Formed] using h,
      (C104_error _ _).2 (.inl ⟨[.label noLoc name], _, [], rfl, ?_, .redefined (loc' := noLoc) (by simp)⟩), rfl⟩
    obtain ⟨_, _, hc, _⟩ := assemble_ok_iff.1 (show assemble [.label noLoc name] = .ret (.ok []) from rfl)
    exact hc
  | past =>
    exact ⟨[.directive noLoc "org".toList [.numeric 4095], .instruction noLoc "cls".toList []], .instructionWouldOverflow noLoc,
      by
        intro n hn
        simp only [List.mem_cons, List.not_mem_nil, or_false] at hn
        rcases hn with rfl | rfl
        · exact top
        · exact ⟨.inl ⟨_, _, rfl, by decide, by decide⟩, by simp⟩, rfl, rfl⟩
  | @instruction l e h =>
    obtain ⟨m, fields, h1, h2, h3⟩ := possible_instruction h
    refine ⟨[.instruction noLoc m fields], .assemblyFailed noLoc e, by simpa [Formed] using ⟨h1, h2⟩,
      (C104_error _ _).2 (.inr ⟨[], [], noLoc, m, fields, [], e, ?_, ?_, rfl, by simp, h3, rfl⟩), rfl⟩
    · refine (clean_snoc (pre := [])).2 ⟨clean_nil, ?_⟩
      rintro e ⟨⟩
      rename_i h _
      cases h
      omega
    · intro name v
      refine ⟨(fun h => by cases h), fun h => ?_⟩
      have : ∃ pre post l, [Node.instruction noLoc m fields] = pre ++ .label l name :: post := by
        generalize [Node.instruction noLoc m fields] = ns at h ⊢
        cases h <;> exact ⟨_, _, _, rfl⟩
      obtain ⟨pre, post, l, h⟩ := this
      have : Node.label l name ∈ [Node.instruction noLoc m fields] := by rw [h]; simp
      simp at this

end C8S
