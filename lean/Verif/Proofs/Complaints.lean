import Verif.Spec.Complaints
import Verif.Proofs.Emit
import Verif.Proofs.Valid
import Verif.Proofs.Lex
import Verif.Proofs.LexFacts
import Verif.Proofs.Lexing
import Verif.Proofs.Possible

/- Lemmas for C81: what the messages say is the case. -/

namespace C8S

open Spec

theorem shownLoc_eq (l : Loc) : shownLoc l = l.display := by
  unfold shownLoc Loc.display
  by_cases h : l.length = 1
  · simp [h, say_cons, say_nil, dec, showDec]
  · simp [h, say_cons, say_nil, dec, showDec]

/-- The label of every label statement has a value. -/
theorem label_has_value {nodes : List Node} (h : Clean nodes) {name : Str} (hm : name ∈ labelNames nodes) :
    ∃ v, LabelValue nodes name v := by
  obtain ⟨loc, hm⟩ := mem_labelNames.1 hm
  obtain ⟨pre, post, rfl⟩ := List.append_of_mem hm
  by_cases hc : ∃ v, ConstantNext post v
  · obtain ⟨v, hv⟩ := hc
    exact ⟨v, .constant hv⟩
  · obtain ⟨a, ha, hb⟩ := clean_reaches pre (clean_prefix h)
    refine ⟨BitVec.ofNat 12 a, .address (fun c hcn => hc ⟨c, hcn⟩) ?_⟩
    rwa [BitVec.toNat_ofNat, Nat.mod_eq_of_lt (by omega)]

theorem denotes_operand {nodes : List Node} {labels : LabelMap} (hl : LabelsOf nodes labels) {fields : List Field}
    {f : Field} {value : Nat} (hm : f ∈ fields) (h : Denotes labels f value) : HasOperand nodes fields value := by
  cases h with
  | literal v => exact .number hm
  | label hg => exact .label hm ((hl _ _).1 hg)

theorem operand_denotes {nodes : List Node} {labels : LabelMap} (hl : LabelsOf nodes labels) {fields : List Field}
    {value : Nat} (h : HasOperand nodes fields value) : ∃ f ∈ fields, Denotes labels f value := by
  cases h with
  | number hm => exact ⟨_, hm, .literal _⟩
  | label hm hv => exact ⟨_, hm, .label ((hl _ _).2 hv)⟩

theorem count_text (d : Str) (n : Nat) : (DirectiveError.incorrectNumberOfParameters d n 1 false).display =
    say ["Incorrect number of parameters (".toList, dec n, ") for directive .".toList, d, ", expecting 1.".toList] := by
  show _ ++ _ ++ _ ++ _ ++ _ ++ _ ++ _ = _
  simp only [say_cons, say_nil, List.append_assoc, List.append_nil]
  rfl

theorem address_text (d : Str) : (DirectiveError.directiveRequiresOneNumericLiteral d).display =
    say ["Directive .".toList, d, " requires 1 numeric literal in the range $000-$FFF.".toList] := by
  show _ ++ _ ++ _ = _
  simp only [say_cons, say_nil, List.append_assoc, List.append_nil]

theorem byte_text (n : Nat) : (DirectiveError.allNumericParametersMustBeByteLiterals "db".toList n).display =
    say ["All numeric parameters to .db must be 1-byte literals ($".toList, hexa n, " > $FF).".toList] := by
  show _ ++ _ ++ _ ++ _ ++ _ = _
  simp only [say_cons, say_nil, List.append_assoc, List.append_nil]
  rfl

theorem unknown_text (name : Str) : (DirectiveError.unrecognizedDirective name).display =
    say ["Unrecognized directive '.".toList, name, "'.".toList] := by
  show _ ++ _ ++ _ = _
  simp only [say_cons, say_nil, List.append_assoc, List.append_nil]

/-- The directive's own message. -/
theorem directive_complaint {nodes : List Node} {loc : Loc} {name : Str} {args : List Literal} {e : DirectiveError}
    (hm : .directive loc name args ∈ nodes) (h : DirectiveFails name args e) : Complaint nodes loc e.display := by
  cases h with
  | count hc hs hn =>
    rw [count_text]
    exact .arguments hm hc hs hn
  | string hc hs =>
    rw [address_text]
    exact .notAddress hm hc hs (by intro n _ he; cases he)
  | range hc hs hr =>
    rw [address_text]
    exact .notAddress hm hc hs (by
      intro k hk he
      cases he
      omega)
  | dbEmpty hs => exact Complaint.noArgument hm hs
  | dbByte hs hb hn =>
    rw [byte_text]
    exact .notByte hm hs (List.mem_append_right _ List.mem_cons_self) hn
  | unknown h1 h2 h3 =>
    rw [unknown_text]
    exact .unknownDirective hm h1 h2 h3

theorem unresolved_text (name : Str) : (InstructionError.unableToResolveLabel name).display =
    say ["Unable to resolve label ".toList, name, ".".toList] := by
  show _ ++ _ ++ _ = _
  simp only [say_cons, say_nil, List.append_assoc, List.append_nil]

theorem eightBit_text (n : Nat) : (InstructionError.expectingEightBitValue n).display =
    say ["Found 12-bit numeric value $".toList, hexa n, ", expecting 8-bit value.".toList] := by
  show _ ++ _ ++ _ = _
  simp only [say_cons, say_nil, List.append_assoc, List.append_nil, hexa, showHexUpper]

theorem fourBit_text (n : Nat) : (InstructionError.expectingFourBitValue n).display =
    say ["Found 8/12-bit numeric value $".toList, hexa n, ", expecting 4-bit value.".toList] := by
  show _ ++ _ ++ _ = _
  simp only [say_cons, say_nil, List.append_assoc, List.append_nil, hexa, showHexUpper]

theorem noMatch_text (m : Str) (fields : List Field) : (InstructionError.noMatchingFormat m
    (if fields = [] then none else some (shownOperands fields))).display =
    say ["No matching instruction: ".toList, m, if fields = [] then [] else say [" ".toList, shownOperands fields],
      ".".toList] := by
  by_cases hf : fields = []
  · rw [if_pos hf, if_pos hf]
    show _ ++ _ ++ _ = _
    simp only [say_cons, say_nil, List.append_assoc, List.append_nil, List.nil_append]
  · rw [if_neg hf, if_neg hf]
    show _ ++ _ ++ _ ++ _ ++ _ = _
    simp only [say_cons, say_nil, List.append_assoc, List.append_nil]

/-- The instruction's own message. -/
theorem instruction_complaint {nodes : List Node} {labels : LabelMap} {loc : Loc} {m : Str} {fields : List Field}
    {e : InstructionError} (hc : Clean nodes) (hl : LabelsOf nodes labels) (hm : .instruction loc m fields ∈ nodes)
    (h : InstructionFails labels m fields e) : Complaint nodes loc e.display := by
  cases h with
  | unresolved hs hi hg =>
    rw [unresolved_text]
    refine .undefinedLabel hm hs hi ?_
    intro hn
    obtain ⟨v, hv⟩ := label_has_value hc hn
    rw [(hl _ _).2 hv] at hg
    cases hg
  | eightBit hs hn hf hd hv =>
    rw [eightBit_text]
    exact .notEightBit hm hs hn (denotes_operand hl hf hd) hv
  | fourBit hs hn hf hd hv =>
    rw [fourBit_text]
    exact .notFourBit hm hs hn (denotes_operand hl hf hd) hv
  | noMatch hn =>
    rw [noMatch_text]
    exact .noInstruction hm hn

/-- A rejected program is rejected with a message that holds of it. -/
theorem complaint_of_error {nodes : List Node} (hr : FourBitProgram nodes) {e : SemanticError}
    (h : assemble nodes = .ret (.error e)) :
    ∃ loc text, Complaint nodes loc text ∧ e.display = say [shownLoc loc, ": error: ".toList, text] := by
  rcases (assemble_error_iff hr).1 h with ⟨pre, n, post, rfl, _, hf⟩ |
    ⟨labels, pre, loc, m, fields, post, reason, hc, hl, rfl, _, hf, rfl⟩
  · have hm : n ∈ pre ++ n :: post := by simp
    clear hr h
    cases hf with
    | invalid hd =>
      refine ⟨_, _, directive_complaint hm hd, ?_⟩
      simp only [SemanticError.display, shownLoc_eq, say_cons, say_nil, List.append_assoc, List.append_nil]
    | tooLarge hd hn =>
      refine ⟨_, _, .tooLarge hm hd (by omega), ?_⟩
      simp only [SemanticError.display, shownLoc_eq, say_cons, say_nil, Directive.display, Directive.size,
        dec, showDec, List.append_assoc, List.append_nil]
      rfl
    | overflow hd hn ha ho =>
      refine ⟨_, _, .overflow rfl hd ha ho, ?_⟩
      simp only [SemanticError.display, shownLoc_eq, say_cons, say_nil, Directive.display, dec, showDec,
        List.append_assoc, List.append_nil]
      rfl
    | @stray loc name args v hd hn =>
      cases hd with
      | equ _ hs =>
        refine ⟨_, _, .noLabel rfl hs hn, ?_⟩
        simp only [SemanticError.display, shownLoc_eq, say_cons, say_nil, List.append_assoc, List.append_nil]
        rfl
    | redefined hm' =>
      refine ⟨_, _, .redefined rfl hm', ?_⟩
      simp only [SemanticError.display, shownLoc_eq, say_cons, say_nil, List.append_assoc, List.append_nil]
      rfl
    | instructionOverflow ha ho =>
      refine ⟨_, _, .instructionOverflow rfl ha ho, ?_⟩
      simp only [SemanticError.display, shownLoc_eq, say_cons, say_nil, List.append_assoc, List.append_nil]
      rfl
  · have h1 := instruction_complaint (loc := loc) hc hl (by simp) hf
    refine ⟨_, _, h1, ?_⟩
    simp only [SemanticError.display, shownLoc_eq, say_cons, say_nil, List.append_assoc, List.append_nil]

theorem emitsAll_byte {args : List Literal} {bytes : List U8} (h : EmitsAll args bytes) {n : Nat}
    (hm : .numeric n ∈ args) : n ≤ 0xFF := by
  induction h with
  | nil => cases hm
  | @number b args bytes _ ih =>
    rcases List.mem_cons.1 hm with e | hm
    · cases e
      have := b.isLt
      omega
    · exact ih hm
  | string _ ih =>
    rcases List.mem_cons.1 hm with e | hm
    · cases e
    · exact ih hm

/-- A program that a message holds of is not valid. -/
theorem complaint_invalid {nodes : List Node} {loc : Loc} {text : Str} (h : Complaint nodes loc text)
    (labels : LabelMap) : ¬ Valid nodes labels := by
  intro hv
  obtain ⟨hc, hl, hi⟩ := valid_iff.1 hv
  have fault : ∀ {loc : Loc} {name : Str} {args : List Literal} {e : DirectiveError},
      .directive loc name args ∈ nodes → DirectiveFails name args e → False := by
    intro loc name args e hm hf
    obtain ⟨d, hd⟩ := hv.directives _ _ _ hm
    exact not_means_and_fails hd hf
  have wrong : ∀ {loc : Loc} {m : Str} {fields : List Field} {e : InstructionError},
      .instruction loc m fields ∈ nodes → InstructionFails labels m fields e → False := by
    intro loc m fields e hm hf
    obtain ⟨w, hw⟩ := hi _ _ _ hm
    exact not_encodes_and_fails hw hf
  cases h with
  | unknownDirective hm h1 h2 h3 => exact fault hm (.unknown h1 h2 h3)
  | arguments hm hc hs hn => exact fault hm (.count hc hs hn)
  | noArgument hm hs => exact fault hm (.dbEmpty hs)
  | @notAddress _ _ _ arg hm hc hs hn =>
    cases arg with
    | string s => exact fault hm (.string hc hs)
    | numeric n =>
      refine fault hm (.range hc hs ?_)
      by_cases hk : n ≤ 0xFFF
      · exact absurd rfl (hn n hk)
      · omega
  | @notByte _ name args n hm hs ha hn =>
    obtain ⟨d, hd⟩ := hv.directives _ _ _ hm
    cases hd with
    | org _ hs' => exact sameLetters_excl hs hs' (by decide)
    | equ _ hs' => exact sameLetters_excl hs hs' (by decide)
    | db _ _ he =>
      have := emitsAll_byte he ha
      omega
  | tooLarge hm hd hn =>
    obtain ⟨pre, post, rfl⟩ := List.append_of_mem hm
    exact hc pre _ post rfl _ (.tooLarge hd (by omega))
  | @overflow pre post _ _ _ bytes a e hd ha ho =>
    by_cases hb : bytes.length ≤ 0xFFF
    · exact hc pre _ post e _ (.overflow hd hb ha ho)
    · exact hc pre _ post e _ (.tooLarge hd (by omega))
  | @noLabel pre post loc name args e hs hn =>
    obtain ⟨d, hd⟩ := hv.directives loc name args (by simp [e])
    cases hd with
    | org _ hs' => exact sameLetters_excl hs hs' (by decide)
    | db hs' _ _ => exact sameLetters_excl hs hs' (by decide)
    | equ v hs' => exact hc pre _ post e _ (.stray (.equ v hs') hn)
  | redefined e hm => exact hc _ _ _ e _ (.redefined hm)
  | instructionOverflow e ha ho => exact hc _ _ _ e _ (.instructionOverflow ha ho)
  | @undefinedLabel _ _ name _ _ hm hs hf hn =>
    refine wrong hm (.unresolved hs hf ?_)
    cases hg : labels.get name with
    | none => rfl
    | some v =>
      exfalso
      generalize hx : nodes = ns at hl hn
      cases (hl _ _).1 hg with
      | constant _ => exact hn (mem_labelNames.2 ⟨_, List.mem_append_right _ List.mem_cons_self⟩)
      | address _ _ => exact hn (mem_labelNames.2 ⟨_, List.mem_append_right _ List.mem_cons_self⟩)
  | notEightBit hm hs hn ho hb =>
    obtain ⟨f, hf, hd⟩ := operand_denotes hl ho
    exact wrong hm (.eightBit hs hn hf hd hb)
  | notFourBit hm hs hn ho hb =>
    obtain ⟨f, hf, hd⟩ := operand_denotes hl ho
    exact wrong hm (.fourBit hs hn hf hd hb)
  | noInstruction hm hn => exact wrong hm (.noMatch hn)

/-! ### Lexical errors -/

theorem not_lexeme_here [Target] {rest : Str} {c : Char} (h : ∀ s rest' k, s ++ rest' = c :: rest → ¬ Lexeme wordBinary s k)
    {s rest' : Str} {k : Loc → Token} (hk : Lexeme wordBinary s k) (e : c :: rest = s ++ rest') : False :=
  h s rest' k e.symm hk

theorem decimal_lexeme [Target] {s : Str} (hne : s ≠ []) (h : ∀ d ∈ s, Decimal d) : ∃ k, Lexeme wordBinary s k := by
  by_cases hv : positional 10 s ≤ 4095
  · exact ⟨_, .decimal hne h hv⟩
  · exact ⟨_, .decimalRange hne h (by omega)⟩

theorem binary_lexeme [Target] {s : Str} (hne : s ≠ []) (h : ∀ d ∈ s, Binary d) : ∃ k, Lexeme wordBinary ('%' :: s) k := by
  by_cases hv : wordBinary s ≤ 4095
  · exact ⟨_, .binary hne h hv⟩
  · exact ⟨_, .binaryRange hne h (by omega)⟩

theorem malformed_complaint [Target] {c : Char} {rest : Str} {e : ScanError} (hb : ¬ Blank c)
    (h : ∀ s rest' k, s ++ rest' = c :: rest → ¬ Lexeme wordBinary s k) (hm : Malformed c e) :
    LexicalComplaint (c :: rest) e.display := by
  cases hm with
  | string =>
    refine .string ?_
    rintro body r hs rfl
    exact not_lexeme_here h (.string hs) (rest' := r) (by simp)
  | hex hc =>
    refine .hexadecimal hc ?_
    intro d hd hx
    cases rest with
    | nil => cases hd
    | cons d' r =>
      cases hd
      exact not_lexeme_here h (.hex hc (s := [d]) (by simp) (by simp) (by simpa using hx)) (rest' := r) (by simp)
  | binary =>
    refine .binary ?_
    intro d hd hx
    cases rest with
    | nil => cases hd
    | cons d' r =>
      cases hd
      obtain ⟨k, hk⟩ := binary_lexeme (s := [d]) (by simp) (by simpa using hx)
      exact not_lexeme_here h hk (rest' := r) (by simp)
  | indirect =>
    refine .indirect ?_
    rintro d r hd rfl
    exact not_lexeme_here h (.indirect hd) (rest' := r) (by simp)
  | other h1 h2 h3 h4 h5 =>
    have key : LexicalComplaint (c :: rest) (say ["Invalid character '".toList, [c], "'.".toList]) := by
      refine .character hb ?_ ?_ ?_
      · intro hn
        exact not_lexeme_here h (.name hn (s := []) (by simp)) (rest' := rest) (by simp)
      · intro hn
        obtain ⟨k, hk⟩ := decimal_lexeme (s := [c]) (by simp) (by simpa using hn)
        exact not_lexeme_here h hk (rest' := rest) (by simp)
      · intro hn
        have hn : c ∈ ['\n', ',', ':', '.', ';', '[', '"', '$', '#', '%'] := hn
        simp only [List.mem_cons, List.not_mem_nil, or_false] at hn
        rcases hn with rfl | rfl | rfl | rfl | rfl | rfl | rfl | rfl | rfl | rfl
        · exact not_lexeme_here h .newline (rest' := rest) (by simp)
        · exact not_lexeme_here h .comma (rest' := rest) (by simp)
        · exact not_lexeme_here h .labelMarker (rest' := rest) (by simp)
        · exact not_lexeme_here h .directiveMarker (rest' := rest) (by simp)
        · exact not_lexeme_here h (.comment (s := []) (by simp)) (rest' := rest) (by simp)
        · exact h5 rfl
        · exact h1 rfl
        · exact h2 rfl
        · exact h3 rfl
        · exact h4 rfl
    simp only [say_cons, say_nil, List.append_nil] at key
    show LexicalComplaint (c :: rest) (_ ++ _ ++ _)
    rw [List.append_assoc]
    exact key

theorem outOfRange_complaint [Target] {s rest : Str} {k : Loc → Token} (h : Longest wordBinary s rest k) {e : ScanError}
    (he : k = .error e) : LexicalComplaint (s ++ rest) e.display := by
  obtain ⟨hl, hmax⟩ := h
  cases hl with
  | decimalRange hne hd hv =>
    have he := congrFun he ⟨[], 0, 0, 0⟩
    cases he
    have key := LexicalComplaint.decimalRange (rest := rest) hne hd (by
      intro d hr hx
      cases rest with
      | nil => cases hr
      | cons d' r =>
        cases hr
        obtain ⟨k, hk⟩ := decimal_lexeme (s := s ++ [d]) (by simp) (by
          intro x hxm
          rcases List.mem_append.1 hxm with hxm | hxm
          · exact hd x hxm
          · rw [List.mem_singleton.1 hxm]; exact hx)
        have := hmax _ r k (by simp) hk
        simp at this
        omega) hv
    simp only [say_cons, say_nil, List.append_nil] at key
    show LexicalComplaint (s ++ rest) (_ ++ _ ++ _)
    rw [List.append_assoc]
    exact key
  | @binaryRange digits hne hd hv =>
    have he := congrFun he ⟨[], 0, 0, 0⟩
    cases he
    refine LexicalComplaint.binaryRange (rest := rest) hne hd ?_ ?_
    · intro d hr hx
      cases rest with
      | nil => cases hr
      | cons d' r =>
        cases hr
        obtain ⟨k, hk⟩ := binary_lexeme (s := digits ++ [d]) (by simp) (by
          intro x hxm
          rcases List.mem_append.1 hxm with hxm | hxm
          · exact hd x hxm
          · rw [List.mem_singleton.1 hxm]; exact hx)
        have := hmax _ r k (by simp) hk
        simp at this
        omega
    · have : wordBinary digits ≤ positional 2 digits := Nat.mod_le _ _
      omega
  | _ => cases congrFun he ⟨[], 0, 0, 0⟩

/-- The lexical error of a text is about the text at its location. -/
theorem lexical_complaint [Target] {file before text : Str} {ts : List Token} (h : Lex wordBinary file before text ts)
    {e : ScanError} {l : Loc} (hm : .error e l ∈ ts) :
    ∃ skipped rest, text = skipped ++ rest ∧ LexicalComplaint rest e.display ∧ l.fileName = file ∧
      l.line = 1 + newlines (before ++ skipped) ∧ l.location = 1 + sinceNewline (before ++ skipped) := by
  induction h with
  | done _ => cases hm
  | @token before blanks s rest k tokens hb hl hE _ ih =>
    rcases List.mem_cons.1 hm with hm | hm
    · exfalso
      cases hl.1 <;> first | (cases hm; done) | (exact hE ⟨_, rfl⟩)
    · obtain ⟨sk, r, rfl, h1, h2, h3, h4⟩ := ih hm
      exact ⟨blanks ++ s ++ sk, r, by simp, h1, h2, by simpa using h3, by simpa using h4⟩
  | @outOfRange before blanks s rest k hb hl hE =>
    obtain ⟨e', rfl⟩ := hE
    cases List.mem_singleton.1 hm
    exact ⟨blanks, s ++ rest, by simp, outOfRange_complaint hl rfl, rfl, rfl, rfl⟩
  | @malformed before blanks rest c e' hb hc hno hM =>
    cases List.mem_singleton.1 hm
    exact ⟨blanks, c :: rest, rfl, malformed_complaint hc hno hM, rfl, rfl, rfl⟩

/-! ### Syntax errors -/

theorem shownNames_eq (names : List Str) : shownNames names = joinWith ", ".toList names := by
  induction names with
  | nil => rfl
  | cons s r ih =>
    cases r with
    | nil => rfl
    | cons t r =>
      rw [shownNames, ih]
      simp only [joinWith, say_cons, say_nil, List.append_assoc, List.append_nil]

theorem shownToken_display {t : Token} {shown : Str} (h : ShownToken t shown) : t.display = shown := by
  cases h with
  | identifier =>
    show _ ++ _ ++ _ ++ _ = say [_, _, _]
    simp only [say_cons, say_nil, List.append_assoc, List.append_nil]
    rfl
  | string =>
    show _ ++ _ ++ _ ++ _ = say [_, _, _]
    simp only [say_cons, say_nil, List.append_assoc, List.append_nil]
    rfl
  | number =>
    show _ ++ _ ++ _ ++ _ ++ _ ++ _ = say [_, _, _, _, _]
    simp only [say_cons, say_nil, List.append_assoc, List.append_nil]
    rfl
  | _ => rfl

theorem shownToken_exists {t : Token} (h : ∀ e l, t ≠ .error e l) : ∃ shown, ShownToken t shown := by
  cases t with
  | singleLineComment s l => exact ⟨_, .comment⟩
  | directiveMarker l => exact ⟨_, .directiveMarker⟩
  | identifier n l => exact ⟨_, .identifier⟩
  | labelMarker l => exact ⟨_, .labelMarker⟩
  | stringLiteral s l => exact ⟨_, .string⟩
  | numericLiteral n l => exact ⟨_, .number⟩
  | comma l => exact ⟨_, .comma⟩
  | newline l => exact ⟨_, .newline⟩
  | error e l => exact (h e l rfl).elim

theorem dot_newline : ".\n".toList = ".".toList ++ "\n".toList := by decide

theorem expecting_one (n : Str) : expecting [n] = n := rfl

theorem expecting_more (n m : Str) (r : List Str) :
    expecting (n :: m :: r) = "one of: ".toList ++ joinWith ", ".toList (n :: m :: r) := by
  unfold expecting
  rw [if_neg (by simp), shownNames_eq]
  simp only [say_cons, say_nil, List.append_nil]

theorem eof_one : "error: Unexpected end-of-file reached, expecting one of: ".toList =
    "error: Unexpected end-of-file reached, expecting ".toList ++ "one of: ".toList := by decide

theorem token_one : ", expecting one of: ".toList = ", expecting ".toList ++ "one of: ".toList := by decide

theorem lexical_one : ": error: Expecting one of: ".toList = ": error: Expecting ".toList ++ "one of: ".toList := by decide

theorem eof_display {names : List Str} (h : names ≠ []) : ∃ m, (ParseError.unexpectedEndOfFile names).display = .ret m ∧
    m ++ "\n".toList = say ["error: Unexpected end-of-file reached, expecting ".toList, expecting names, ".\n".toList] := by
  match names, h with
  | [n], _ =>
    refine ⟨_, rfl, ?_⟩
    rw [expecting_one, dot_newline]
    simp only [say_cons, say_nil, List.append_assoc, List.append_nil]
  | n :: m :: r, _ =>
    refine ⟨_, rfl, ?_⟩
    rw [expecting_more, dot_newline, eof_one]
    simp only [say_cons, say_nil, List.append_assoc, List.append_nil]

theorem lexical_display {names : List Str} (h : names ≠ []) (e : ScanError) (l : Loc) :
    ∃ m, (ParseError.unexpectedToken names (.error e l)).display = .ret m ∧
    m ++ "\n".toList = say [shownLoc l, ": error: Encountered syntax error: ".toList, e.display,
      "\n".toList, shownLoc l, ": error: Expecting ".toList, expecting names, ".\n".toList] := by
  match names, h with
  | [n], _ =>
    refine ⟨_, rfl, ?_⟩
    rw [expecting_one, dot_newline, shownLoc_eq]
    simp only [say_cons, say_nil, List.append_assoc, List.append_nil]
  | n :: m :: r, _ =>
    refine ⟨_, rfl, ?_⟩
    rw [expecting_more, dot_newline, lexical_one, shownLoc_eq]
    simp only [say_cons, say_nil, List.append_assoc, List.append_nil]

theorem token_display {names : List Str} (h : names ≠ []) {t : Token} {shown : Str} (ht : ShownToken t shown) :
    ∃ m, (ParseError.unexpectedToken names t).display = .ret m ∧
    m ++ "\n".toList = say [shownLoc t.location, ": error: Unexpected token found: ".toList, shown,
      ", expecting ".toList, expecting names, ".\n".toList] := by
  rw [← shownToken_display ht, shownLoc_eq]
  match names, h with
  | [n], _ =>
    refine ⟨t.location.display ++ ": error: Unexpected token found: ".toList ++ t.display
        ++ ", expecting ".toList ++ n ++ ".".toList, by cases ht <;> rfl, ?_⟩
    rw [expecting_one, dot_newline]
    simp only [say_cons, say_nil, List.append_assoc, List.append_nil]
  | n :: m :: r, _ =>
    refine ⟨t.location.display ++ ": error: Unexpected token found: ".toList ++ t.display
        ++ ", expecting one of: ".toList ++ joinWith ", ".toList (n :: m :: r) ++ ".".toList, by cases ht <;> rfl, ?_⟩
    rw [expecting_more, dot_newline, token_one]
    simp only [say_cons, say_nil, List.append_assoc, List.append_nil]

/-- The names of what is expected are told in one of four ways. -/
theorem expectations_of_error {tokens : List Token} {e : ParseError} (h : parse tokens = .ret (.error e)) :
    (match e with
      | .unexpectedToken names _ => names
      | .unexpectedEndOfFile names => names) ∈ expectations := by
  have hp : ∀ p : Spot, p.names ∈ expectations := by
    intro p
    cases p <;> simp [Spot.names, expectations]
  rcases outcome_possible ((parse_iff _ _).1 h) rfl with ⟨p, t, _, _, rfl⟩ | ⟨p, _, rfl⟩ <;> exact hp p

end C8S
