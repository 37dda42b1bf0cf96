import Verif.Spec.Printed
import Verif.Props.Complaints
import Verif.Props.Reports
import Verif.Props.Diagnostics
import Verif.Proofs.Source

/- Lemmas about the characters of messages. -/

namespace C8S

open Spec

theorem Spec.PlainBut.append {x a b : Str} (ha : PlainBut x a) (hb : PlainBut x b) : PlainBut x (a ++ b) := by
  intro c hc
  rcases List.mem_append.1 hc with hc | hc
  · exact ha c hc
  · exact hb c hc

theorem Spec.PlainBut.say {x : Str} {parts : List Str} (h : ∀ p ∈ parts, PlainBut x p) : PlainBut x (say parts) := by
  intro c hc
  obtain ⟨p, hp, hc⟩ := List.mem_flatMap.1 hc
  exact h p hp c hc

theorem Spec.PlainBut.of {x s : Str} (h : ∀ c ∈ s, Printable c) : PlainBut x s := fun c hc => .inl (h c hc)

theorem Spec.PlainBut.self (x : Str) : PlainBut x x := fun _ hc => .inr hc

theorem Spec.PlainBut.nil {x : Str} : PlainBut x [] := fun _ hc => nomatch hc

theorem lower_printable : ∀ d, d < 16 → Printable (Nat.digitChar d) := by decide +kernel

theorem upper_printable : ∀ d, d < 16 → Printable (Nat.digitChar d).toUpper := by decide +kernel

theorem dec_plain {x : Str} (n : Nat) : PlainBut x (Nat.toDigits 10 n) :=
  .of (toDigits_all (by omega) (fun d hd => lower_printable d (by omega)) n)

theorem hex_plain {x : Str} (n : Nat) : PlainBut x (Nat.toDigits 16 n) :=
  .of (toDigits_all (by omega) lower_printable n)

theorem hexa_plain {x : Str} (n : Nat) : PlainBut x ((Nat.toDigits 16 n).map Char.toUpper) := by
  refine .of fun c hc => ?_
  obtain ⟨d, hd, rfl⟩ := List.mem_map.1 hc
  exact toDigits_all (p := fun c => Printable c.toUpper) (by omega) upper_printable n d hd

theorem nameChar_printable {c : Char} (h : NameChar c) : Printable c := by
  have le : ∀ {a b c : Char}, a ≤ b → b ≤ c → a ≤ c := fun h h' => UInt32.le_trans h h'
  rcases h with (rfl | ⟨h1, h2⟩ | ⟨h1, h2⟩) | ⟨h1, h2⟩
  · decide
  · exact ⟨le (by decide) h1, le h2 (by decide)⟩
  · exact ⟨le (by decide) h1, le h2 (by decide)⟩
  · exact ⟨le (by decide) h1, le h2 (by decide)⟩

theorem isName_plain {x s : Str} (h : IsName s) : PlainBut x s := by
  refine .of ?_
  rcases h with ⟨c, t, rfl, hc, ht⟩ | rfl | rfl
  · intro d hd
    rcases List.mem_cons.1 hd with rfl | hd
    · exact nameChar_printable (.inl hc)
    · exact nameChar_printable (ht d hd)
  · decide
  · decide

theorem decimal_plain {x s : Str} (h : ∀ d ∈ s, Decimal d) : PlainBut x s :=
  .of fun d hd => nameChar_printable (.inr (h d hd))

theorem shownLoc_plain {l : Loc} {file : Str} (h : l.fileName = file) : PlainBut file (shownLoc l) := by
  refine .say ?_
  intro p hp
  simp only [List.mem_cons, List.not_mem_nil, or_false] at hp
  rcases hp with rfl | rfl | rfl | rfl | rfl | rfl
  · rw [h]; exact .self _
  · exact .of (by decide)
  · exact dec_plain _
  · exact .of (by decide)
  · exact dec_plain _
  · split
    · exact .nil
    · refine .say ?_
      intro p hp
      simp only [List.mem_cons, List.not_mem_nil, or_false] at hp
      rcases hp with rfl | rfl
      · exact .of (by decide)
      · exact dec_plain _

theorem operand_plainBut {x : Str} {f : Field} (h : ∀ s, f = .identifier s → IsName s) : PlainBut x (shownOperand f) := by
  have two : ∀ {a b : Str}, PlainBut x a → PlainBut x b → PlainBut x (say [a, b]) := by
    intro a b ha hb
    refine .say ?_
    intro p hp
    simp only [List.mem_cons, List.not_mem_nil, or_false] at hp
    rcases hp with rfl | rfl
    · exact ha
    · exact hb
  cases f with
  | numericLiteral v => exact two (.of (by decide)) (hex_plain _)
  | generalPurposeRegister r => exact two (.of (by decide)) (hex_plain _)
  | identifier s => exact two (.of (by decide)) (isName_plain (h s rfl))
  | _ => exact .of (by decide)

theorem operands_plainBut {x : Str} {fs : List Field} (h : ∀ f ∈ fs, ∀ s, f = .identifier s → IsName s) :
    PlainBut x (shownOperands fs) := by
  induction fs with
  | nil => exact .nil
  | cons f fs ih =>
    have hf := operand_plainBut (x := x) (h f List.mem_cons_self)
    have hr := ih fun g hg => h g (List.mem_cons_of_mem _ hg)
    cases fs with
    | nil => exact hf
    | cons g fs =>
      refine .say ?_
      intro p hp
      simp only [List.mem_cons, List.not_mem_nil, or_false] at hp
      rcases hp with rfl | rfl | rfl
      · exact hf
      · exact .of (by decide)
      · exact hr

theorem expected_plain {x name : Str} {t : Token} (h : Expected name t) : PlainBut x name := by
  cases h <;> exact .of (by decide)

theorem joined_plain {x : Str} {names : List Str} (h : ∀ n ∈ names, PlainBut x n) :
    PlainBut x (joinWith ", ".toList names) := by
  induction names with
  | nil => exact .nil
  | cons n names ih =>
    have hn := h n List.mem_cons_self
    have hr := ih fun m hm => h m (List.mem_cons_of_mem _ hm)
    cases names with
    | nil => exact hn
    | cons m names => exact (hn.append (.of (by decide))).append hr

/-- The names in what a complaint is about. -/
theorem complaint_plain {nodes : List Node} {loc : Loc} {message file : Str} (hf : ∀ n ∈ nodes, Formed n)
    (hl : ∀ n ∈ nodes, (nodeLocation n).fileName = file) (h : Complaint nodes loc message) :
    loc.fileName = file ∧ PlainBut file message := by
  have three : ∀ {a b c : Str}, PlainBut file a → PlainBut file b → PlainBut file c → PlainBut file (say [a, b, c]) := by
    intro a b c ha hb hc
    refine .say ?_
    intro p hp
    simp only [List.mem_cons, List.not_mem_nil, or_false] at hp
    rcases hp with rfl | rfl | rfl
    · exact ha
    · exact hb
    · exact hc
  have four : ∀ {a b c d : Str}, PlainBut file a → PlainBut file b → PlainBut file c → PlainBut file d →
      PlainBut file (say [a, b, c, d]) := by
    intro a b c d ha hb hc hd
    refine .say ?_
    intro p hp
    simp only [List.mem_cons, List.not_mem_nil, or_false] at hp
    rcases hp with rfl | rfl | rfl | rfl
    · exact ha
    · exact hb
    · exact hc
    · exact hd
  have can : ∀ {c : Str}, c = "org".toList ∨ c = "equ".toList → PlainBut file c := by
    rintro c (rfl | rfl) <;> exact .of (by decide)
  cases h with
  | unknownDirective hm =>
    exact ⟨hl _ hm, three (.of (by decide)) (isName_plain (hf _ hm).1) (.of (by decide))⟩
  | arguments hm hc =>
    refine ⟨hl _ hm, .say ?_⟩
    intro p hp
    simp only [List.mem_cons, List.not_mem_nil, or_false] at hp
    rcases hp with rfl | rfl | rfl | rfl | rfl
    · exact .of (by decide)
    · exact dec_plain _
    · exact .of (by decide)
    · exact can hc
    · exact .of (by decide)
  | noArgument hm => exact ⟨hl _ hm, .of (by decide)⟩
  | notAddress hm hc => exact ⟨hl _ hm, three (.of (by decide)) (can hc) (.of (by decide))⟩
  | notByte hm => exact ⟨hl _ hm, three (.of (by decide)) (hexa_plain _) (.of (by decide))⟩
  | tooLarge hm =>
    refine ⟨hl _ hm, .say ?_⟩
    intro p hp
    simp only [List.mem_cons, List.not_mem_nil, or_false] at hp
    rcases hp with rfl | rfl | rfl | rfl | rfl
    · exact .of (by decide)
    · exact dec_plain _
    · exact .of (by decide)
    · exact dec_plain _
    · exact .of (by decide)
  | @overflow pre post _ name args bytes a e =>
    exact ⟨hl (.directive loc name args) (by rw [e]; simp), three (.of (by decide)) (dec_plain _) (.of (by decide))⟩
  | @noLabel pre post _ name args e => exact ⟨hl (.directive loc name args) (by rw [e]; simp), .of (by decide)⟩
  | @redefined pre post _ loc' name e =>
    have hm : Node.label loc name ∈ nodes := by rw [e]; simp
    exact ⟨hl _ hm, three (.of (by decide)) (isName_plain (hf _ hm)) (.of (by decide))⟩
  | @instructionOverflow pre post _ m fields a e => exact ⟨hl (.instruction loc m fields) (by rw [e]; simp), .of (by decide)⟩
  | undefinedLabel hm _ hi =>
    exact ⟨hl _ hm, three (.of (by decide)) (isName_plain ((hf _ hm).2 _ hi).1) (.of (by decide))⟩
  | notEightBit hm => exact ⟨hl _ hm, three (.of (by decide)) (hexa_plain _) (.of (by decide))⟩
  | notFourBit hm => exact ⟨hl _ hm, three (.of (by decide)) (hexa_plain _) (.of (by decide))⟩
  | @noInstruction _ m fields hm =>
    refine ⟨hl _ hm, four (.of (by decide)) (isName_plain (hf _ hm).1) ?_ (.of (by decide))⟩
    split
    · exact .nil
    · refine .say ?_
      intro p hp
      simp only [List.mem_cons, List.not_mem_nil, or_false] at hp
      rcases hp with rfl | rfl
      · exact .of (by decide)
      · refine operands_plainBut fun f hf' s e => ?_
        subst e
        exact ((hf _ hm).2 _ hf').1

/-- The file of a token. -/
theorem token_file [Target] {file text : Str} {tokens : List Token} (h : scan file text = .ret tokens) :
    ∀ t ∈ tokens, t.location.fileName = file := by
  intro t ht
  obtain ⟨pieces, tail, hP, hloc⟩ := C04_locations file text tokens h
  obtain ⟨i, hi, rfl⟩ := List.getElem_of_mem ht
  have hi' : i < pieces.length := by rw [hP.count]; exact hi
  rw [hloc i _ pieces[i] (List.getElem?_eq_getElem hi) (List.getElem?_eq_getElem hi')]

theorem node_file [Target] {file text : Str} {tokens : List Token} {nodes : List Node} (h : scan file text = .ret tokens)
    (hp : Program tokens nodes) : ∀ n ∈ nodes, (nodeLocation n).fileName = file := by
  intro n hn
  obtain ⟨name, hm⟩ := program_location hp n hn
  exact token_file h _ hm

/-! ### Tokens -/

theorem lex_digits_mem {bin : Str → Nat} {file before text : Str} {ts : List Token} (h : Lex bin file before text ts) {s : Str} {l : Loc}
    (hm : .error (.decimalLiteralOutOfRange s) l ∈ ts) : ∀ d ∈ s, Decimal d := by
  induction h with
  | done _ => cases hm
  | @token before blanks u rest k tokens hb hl hE _ ih =>
    rcases List.mem_cons.1 hm with hm | hm
    · exfalso
      cases hl.1 <;> first | (cases hm; done) | (exact hE ⟨_, rfl⟩)
    · exact ih hm
  | @outOfRange before blanks u rest k hb hl hE =>
    obtain ⟨e', rfl⟩ := hE
    cases List.mem_singleton.1 hm
    generalize hk : (Token.error (.decimalLiteralOutOfRange s)) = k at hl
    cases hl.1 with
    | decimalRange _ hd =>
      cases congrFun hk ⟨[], 0, 0, 0⟩
      exact hd
    | _ => cases congrFun hk ⟨[], 0, 0, 0⟩
  | @malformed before blanks rest c e' hb hc hno hM =>
    cases List.mem_singleton.1 hm
    cases hM

theorem token_parts [Target] {x file text : Str} {tokens : List Token} (h : scan file text = .ret tokens) {t : Token} (ht : t ∈ tokens) :
    ∃ a b, t.display = a ++ (verbatim t ++ b) ∧ PlainBut x a ∧ PlainBut x b := by
  have hl := (scan_iff_lex _ _ _).1 h
  have plain : ∀ {s : Str}, verbatim t = [] → t.display = s → PlainBut x s →
      ∃ a b, t.display = a ++ (verbatim t ++ b) ∧ PlainBut x a ∧ PlainBut x b := by
    intro s hv hd hs
    exact ⟨s, [], by rw [hv, hd]; simp, hs, .nil⟩
  have two : ∀ {a b c : Str}, PlainBut x a → PlainBut x b → PlainBut x c → PlainBut x (a ++ b ++ c) :=
    fun ha hb hc => (ha.append hb).append hc
  cases t with
  | identifier s l =>
    refine plain (s := "identifier (".toList ++ s ++ ")".toList) rfl rfl (two (.of (by decide)) ?_ (.of (by decide)))
    exact isName_plain ((lexed_tokens hl _ ht).1 s l rfl)
  | stringLiteral s l =>
    refine ⟨"string literal (\"".toList, "\")".toList, ?_, .of (by decide), .of (by decide)⟩
    rw [← List.append_assoc]
    rfl
  | numericLiteral n l =>
    refine plain (s := "numeric literal (".toList ++ showDec n ++ " / $".toList ++ showHexUpper n ++ ")".toList) rfl rfl ?_
    exact two (two (.of (by decide)) (dec_plain n) (.of (by decide))) (hexa_plain n) (.of (by decide))
  | error e l =>
    cases e with
    | invalidCharacter c => exact ⟨"Invalid character '".toList, "'.".toList, by rw [← List.append_assoc]; rfl, .of (by decide), .of (by decide)⟩
    | decimalLiteralOutOfRange s =>
      refine plain (s := "Decimal literal ".toList ++ s ++ " not in range (0...4095).".toList) rfl rfl
        (two (.of (by decide)) ?_ (.of (by decide)))
      exact decimal_plain (lex_digits_mem hl ht)
    | invalidStringLiteral => exact plain (s := "Invalid quoted string literal.".toList) rfl rfl (.of (by decide))
    | invalidHexadecimalLiteral =>
      exact plain (s := "Invalid hexadecimal literal starting with ($).".toList) rfl rfl (.of (by decide))
    | invalidDecimalLiteral => exact plain (s := "Invalid decimal literal encountered.".toList) rfl rfl (.of (by decide))
    | invalidBinaryLiteral => exact plain (s := "Invalid binary literal encountered.".toList) rfl rfl (.of (by decide))
    | binaryLiteralOutOfRange _ => exact plain (s := "Binary literal not in range 0...4095.".toList) rfl rfl (.of (by decide))
    | invalidIdentifier => exact plain (s := "Invalid identifier encountered.".toList) rfl rfl (.of (by decide))
    | expectedRegisterIndirect =>
      exact plain (s := "Expected Index Register Indirect ([i]) not found.".toList) rfl rfl (.of (by decide))
  | singleLineComment s l => exact plain (s := "single-line comment".toList) rfl rfl (.of (by decide))
  | directiveMarker l => exact plain (s := "directive marker".toList) rfl rfl (.of (by decide))
  | labelMarker l => exact plain (s := "label marker".toList) rfl rfl (.of (by decide))
  | comma l => exact plain (s := "comma".toList) rfl rfl (.of (by decide))
  | newline l => exact plain (s := "newline".toList) rfl rfl (.of (by decide))

theorem expecting_plain {x : Str} {names : List Str} (h : ∀ name ∈ names, ∃ tok, Expected name tok) :
    PlainBut x (expecting names) := by
  have hj : PlainBut x (shownNames names) := by
    rw [shownNames_eq]
    exact joined_plain fun n hn => by
      obtain ⟨t, ht⟩ := h n hn
      exact expected_plain ht
  unfold expecting
  split
  · exact hj
  · refine .say ?_
    intro p hp
    simp only [List.mem_cons, List.not_mem_nil, or_false] at hp
    rcases hp with rfl | rfl
    · exact .of (by decide)
    · exact hj

/-- What is printed of a file that is not a program, in terms of the tokens. -/
theorem syntax_parts [Target] (env : Env) (program input output text : Str) (tokens : List Token)
    (hs : scan input text = .ret tokens) (hp : ¬ ∃ ns, Program tokens ns) :
    ∃ names : List Str, (∀ name ∈ names, ∃ tok, Expected name tok) ∧
      ((∃ pre t post, tokens = pre ++ t :: post ∧ Completable pre ∧ ¬ Completable (pre ++ [t]) ∧
          ((∀ e l, t ≠ .error e l) ∧ assembleText env program input output text =
            ⟨[.printed (say [shownLoc t.location, ": error: Unexpected token found: ".toList, t.display,
              ", expecting ".toList, expecting names, ".\n".toList])], .code 1⟩ ∨
           (∃ e l, t = .error e l) ∧ post = [] ∧ assembleText env program input output text =
            ⟨[.printed (say [shownLoc t.location, ": error: Encountered syntax error: ".toList, t.display,
              "\n".toList, shownLoc t.location, ": error: Expecting ".toList, expecting names, ".\n".toList])], .code 1⟩)) ∨
       (Completable tokens ∧ assembleText env program input output text =
          ⟨[.printed (say ["error: Unexpected end-of-file reached, expecting ".toList, expecting names,
            ".\n".toList])], .code 1⟩)) := by
  obtain ⟨e, he⟩ := (C11_rejects tokens).2 hp
  have hd : ∀ {message : Str}, e.display = .ret message → assembleText env program input output text =
      ⟨[.printed (message ++ "\n".toList)], .code 1⟩ := by
    intro message hm
    unfold assembleText
    simp only [hs, he, hm]
  have hx := C54_expected tokens e he
  cases e with
  | unexpectedEndOfFile names =>
    obtain ⟨h1, h2, h3⟩ := C15_end tokens names he
    obtain ⟨m, hm, e⟩ := eof_display h3
    exact ⟨names, fun name hn => (hx name hn).1, .inr ⟨h1, by rw [hd hm, e]⟩⟩
  | unexpectedToken names t =>
    obtain ⟨pre, post, rfl, h1, h2, h3⟩ := hx
    obtain ⟨_, _, _, _, _, hne⟩ := C15_token _ names t he
    refine ⟨names, fun name hn => (h3 name hn).1, .inl ⟨pre, t, post, rfl, h1, h2, ?_⟩⟩
    by_cases ht : ∃ e l, t = .error e l
    · obtain ⟨e, l, rfl⟩ := ht
      have hpost := C08_error_last input text _ pre post e l hs rfl
      obtain ⟨m, hm, em⟩ := lexical_display hne e l
      exact .inr ⟨⟨e, l, rfl⟩, hpost, by rw [hd hm, em]; rfl⟩
    · obtain ⟨shown, hsh⟩ := shownToken_exists (t := t) (fun e l h => ht ⟨e, l, h⟩)
      obtain ⟨m, hm, em⟩ := token_display hne hsh
      refine .inl ⟨fun e l h => ht ⟨e, l, h⟩, ?_⟩
      rw [hd hm, em, shownToken_display hsh]

/-- A beginning of the beginning of a program is the beginning of a program. -/
theorem completable_of_append {a b : List Token} (h : Completable (a ++ b)) : Completable a := by
  obtain ⟨ext, ns, hp⟩ := h
  exact ⟨b ++ ext, ns, by rwa [← List.append_assoc]⟩

theorem upperDigit_printable (n : Nat) : Printable (upperDigit n) := by
  by_cases h : n < 16
  · exact (by decide +kernel : ∀ i : Fin 16, Printable (upperDigit i.val)) ⟨n, h⟩
  · have : upperDigit n = '?' := by
      unfold upperDigit
      rw [List.getD_eq_getElem?_getD, List.getElem?_eq_none (by simpa using h)]
      rfl
    rw [this]
    decide

theorem upperTriple_plain {x : Str} (n : Nat) : PlainBut x (upperTriple n) := by
  refine .of fun c hc => ?_
  unfold upperTriple at hc
  simp only [List.mem_cons, List.not_mem_nil, or_false] at hc
  rcases hc with rfl | rfl | rfl <;> exact upperDigit_printable _

theorem shownRange_plain {x : Str} (r : DataRange) : PlainBut x (shownRange r) :=
  ((((((PlainBut.of (by decide)).append (upperTriple_plain _)).append (.of (by decide))).append (upperTriple_plain _)).append
    (.of (by decide))).append (dec_plain _)).append (.of (by decide))

end C8S
