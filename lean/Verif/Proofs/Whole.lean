import Verif.Spec.Whole
import Verif.Proofs.Written
import Verif.Props.Complaints
import Verif.Props.Reports
import Verif.Props.CommandLine

/- Lemmas for C126: the behaviour of the tool as a whole. -/

namespace C8S

open Spec

/-! ### Syntax errors -/

/-- Line and column determine the place in a text. -/
theorem place_unique {a b a' b' : Str} (h : a ++ b = a' ++ b') (hn : newlines a = newlines a')
    (hs : sinceNewline a = sinceNewline a') : a = a' ∧ b = b' := by
  have key : ∀ {x m : Str}, newlines x = newlines (x ++ m) → sinceNewline x = sinceNewline (x ++ m) → m = [] := by
    intro x m h1 h2
    have h3 : '\n' ∉ m := by
      unfold newlines at h1
      rw [List.count_append] at h1
      exact List.count_eq_zero.1 (by omega)
    rw [sinceNewline_append, if_neg h3] at h2
    exact List.length_eq_zero_iff.1 (by omega)
  rcases List.append_eq_append_iff.1 h with ⟨m, rfl, rfl⟩ | ⟨m, rfl, rfl⟩
  · have := key hn hs
    subst this
    simp
  · have := key hn.symm hs.symm
    subst this
    simp

theorem takeWhile_run {p : Char → Bool} {a b : Str} (ha : ∀ c ∈ a, p c = true) (hb : ∀ c, b.head? = some c → p c = false) :
    (a ++ b).takeWhile p = a := by
  induction a with
  | nil =>
    cases b with
    | nil => rfl
    | cons c b => simp [hb c rfl]
  | cons c a ih =>
    rw [List.cons_append, List.takeWhile_cons, if_pos (ha c List.mem_cons_self), ih fun d hd => ha d (List.mem_cons_of_mem _ hd)]

/-- What is said of a text that begins with no token, by its beginning. -/
def lexicalText : Str → Str
  | [] => []
  | c :: r =>
    if c = '"' then "Invalid quoted string literal.".toList
    else if c = '$' ∨ c = '#' then "Invalid hexadecimal literal starting with ($).".toList
    else if c = '%' then
      match r with
      | [] => "Invalid binary literal encountered.".toList
      | d :: _ => if Binary d then "Binary literal not in range 0...4095.".toList else "Invalid binary literal encountered.".toList
    else if c = '[' then "Expected Index Register Indirect ([i]) not found.".toList
    else if Decimal c then
      say ["Decimal literal ".toList, (c :: r).takeWhile (fun c => decide (Decimal c)), " not in range (0...4095).".toList]
    else say ["Invalid character '".toList, [c], "'.".toList]

theorem lexicalComplaint_text {s m : Str} (h : LexicalComplaint s m) : m = lexicalText s := by
  have hd : ∀ c ∈ ['"', '$', '#', '%', '['], ¬ Decimal c := by decide
  cases h with
  | string _ =>
    unfold lexicalText
    dsimp only
    rw [if_pos rfl]
  | @hexadecimal c _ hc _ =>
    unfold lexicalText
    dsimp only
    rw [if_neg (by rintro rfl; revert hc; decide), if_pos hc]
  | @binary s h =>
    unfold lexicalText
    dsimp only
    rw [if_neg (by decide), if_neg (by decide), if_pos rfl]
    cases s with
    | nil => rfl
    | cons d s => exact (if_neg (h d rfl)).symm
  | indirect _ =>
    unfold lexicalText
    dsimp only
    rw [if_neg (by decide), if_neg (by decide), if_neg (by decide), if_pos rfl]
  | @decimalRange digits rest h1 h2 h3 h4 =>
    have ht : (digits ++ rest).takeWhile (fun c => decide (Decimal c)) = digits :=
      takeWhile_run (fun c hc => by simpa using h2 c hc) (fun c hc => by simpa using h3 c hc)
    cases digits with
    | nil => exact (h1 rfl).elim
    | cons c r =>
      have hc := h2 c List.mem_cons_self
      have hx : ∀ d ∈ ['"', '$', '#', '%', '['], c ≠ d := fun d hm e => hd d hm (e ▸ hc)
      rw [List.cons_append] at ht ⊢
      unfold lexicalText
      dsimp only
      rw [if_neg (hx _ (by decide)), if_neg (not_or.2 ⟨hx _ (by decide), hx _ (by decide)⟩), if_neg (hx _ (by decide)),
        if_neg (hx _ (by decide)), if_pos hc, ht]
  | @binaryRange digits rest h1 h2 h3 h4 =>
    cases digits with
    | nil => exact (h1 rfl).elim
    | cons d ds =>
      rw [List.cons_append, List.cons_append]
      unfold lexicalText
      dsimp only
      rw [if_neg (by decide), if_neg (by decide), if_pos rfl]
      exact (if_pos (h2 d List.mem_cons_self)).symm
  | @character c s h1 h2 h3 h4 =>
    have h4 : c ∉ ['\n', ',', ':', '.', ';', '[', '"', '$', '#', '%'] := h4
    have hx : ∀ d ∈ ['\n', ',', ':', '.', ';', '[', '"', '$', '#', '%'], c ≠ d := fun d hm e => h4 (e ▸ hm)
    unfold lexicalText
    dsimp only
    rw [if_neg (hx _ (by decide)), if_neg (not_or.2 ⟨hx _ (by decide), hx _ (by decide)⟩), if_neg (hx _ (by decide)),
      if_neg (hx _ (by decide)), if_neg h3]

theorem lexicalComplaint_unique {s m m' : Str} (h : LexicalComplaint s m) (h' : LexicalComplaint s m') : m = m' :=
  (lexicalComplaint_text h).trans (lexicalComplaint_text h').symm

theorem mayFollow_unique {pre : List Token} {names names' : List Str} (h : MayFollow pre names) (h' : MayFollow pre names') :
    names = names' := by
  have l0 : Loc := ⟨[], 0, 0, 0⟩
  have ns : ∀ tok : Token, (∃ l, tok = .directiveMarker l) ∨ (∃ s l, tok = .stringLiteral s l) ∨ (∃ n l, tok = .numericLiteral n l) →
      ¬ Separates tok := by
    rintro tok (⟨l, rfl⟩ | ⟨s, l, rfl⟩ | ⟨n, l, rfl⟩) <;> simp [Separates, IsNewline, IsComment]
  have iff : ∀ tok, ¬ Separates tok → ((∃ name ∈ names, Expected name tok) ↔ ∃ name ∈ names', Expected name tok) :=
    fun tok ht => (h.2 tok ht).symm.trans (h'.2 tok ht)
  have h1 := iff (.directiveMarker l0) (ns _ (.inl ⟨_, rfl⟩))
  have h2 := iff (.stringLiteral [] l0) (ns _ (.inr (.inl ⟨_, _, rfl⟩)))
  have h3 := iff (.numericLiteral 0 l0) (ns _ (.inr (.inr ⟨_, _, rfl⟩)))
  have d1 : ∀ name, Expected name (.directiveMarker l0) ↔ name = "directive marker".toList :=
    fun name => ⟨fun h => by cases h; rfl, fun h => by subst h; exact .directiveMarker⟩
  have d2 : ∀ name, Expected name (.stringLiteral [] l0) ↔ name = "string literal".toList :=
    fun name => ⟨fun h => by cases h; rfl, fun h => by subst h; exact .string⟩
  have d3 : ∀ name, Expected name (.numericLiteral 0 l0) ↔ name = "numeric literal".toList ∨ name = "instruction field".toList :=
    fun name => ⟨fun h => (by
        cases h
        · exact .inl rfl
        · exact .inr rfl),
      fun h => (by rcases h with rfl | rfl <;> first | exact .numeric | exact .fieldNumeric)⟩
  simp only [d1, d2, d3, and_or_left, exists_or, exists_eq_right] at h1 h2 h3
  have key : ∀ a ∈ expectations, ∀ b ∈ expectations,
      ("directive marker".toList ∈ a ↔ "directive marker".toList ∈ b) →
      ("string literal".toList ∈ a ↔ "string literal".toList ∈ b) →
      ("numeric literal".toList ∈ a ∨ "instruction field".toList ∈ a ↔
        "numeric literal".toList ∈ b ∨ "instruction field".toList ∈ b) → a = b := by
    intro a ha b hb
    simp only [expectations, List.mem_cons, List.not_mem_nil, or_false] at ha hb
    rcases ha with rfl | rfl | rfl | rfl <;> rcases hb with rfl | rfl | rfl | rfl <;> decide +kernel
  exact key _ h.1 _ h'.1 h1 h2 h3

theorem not_completable_error (pre : List Token) (e : ScanError) (l : Loc) : ¬ Completable (pre ++ [.error e l]) := by
  rintro ⟨ext, ns, h⟩
  exact program_no_error h e l (by simp)

theorem shownToken_unique {t : Token} {s s' : Str} (h : ShownToken t s) (h' : ShownToken t s') : s = s' := by
  cases h <;> cases h' <;> rfl

/-- There is one report of a text that is not a program. -/
theorem syntaxReport_unique {file text : Str} {tokens : List Token} {m m' : Str} (h : SyntaxReport file text tokens m)
    (h' : SyntaxReport file text tokens m') : m = m' := by
  have whole : ∀ {pre post : List Token} {t : Token}, tokens = pre ++ t :: post → ¬ Completable (pre ++ [t]) →
      ¬ Completable tokens := by
    rintro pre post t rfl hn ⟨ext, ns, hp⟩
    exact hn ⟨post ++ ext, ns, by simpa using hp⟩
  cases h with
  | @token pre post t shown names e hc hn hs hf =>
    cases h' with
    | @token pre' post' t' shown' names' e' hc' hn' hs' hf' =>
      obtain rfl := first_bad_unique (e.symm.trans e') hc hn hc' hn'
      obtain ⟨rfl, rfl⟩ := List.cons.inj (List.append_cancel_left (e.symm.trans e'))
      rw [mayFollow_unique hf hf', shownToken_unique hs hs']
    | @lexical pre' e1 l names' _ _ _ e' hc' =>
      obtain rfl := first_bad_unique (e.symm.trans e') hc hn hc' (not_completable_error _ _ _)
      obtain ⟨rfl, _⟩ := List.cons.inj (List.append_cancel_left (e.symm.trans e'))
      cases hs
    | endOfFile hc' => exact (whole e hn hc').elim
  | @lexical pre e1 l names sk rest msg e hc hf ht hm _ hl hk =>
    cases h' with
    | @token pre' post' t' shown' names' e' hc' hn' hs' hf' =>
      obtain rfl := first_bad_unique (e'.symm.trans e) hc' hn' hc (not_completable_error _ _ _)
      obtain ⟨rfl, _⟩ := List.cons.inj (List.append_cancel_left (e'.symm.trans e))
      cases hs'
    | @lexical pre' e1' l' names' sk' rest' msg' e' hc' hf' ht' hm' _ hl' hk' =>
      obtain rfl := first_bad_unique (e.symm.trans e') hc (not_completable_error _ _ _) hc' (not_completable_error _ _ _)
      obtain ⟨ee, _⟩ := List.cons.inj (List.append_cancel_left (e.symm.trans e'))
      cases ee
      obtain ⟨rfl, rfl⟩ := place_unique (ht.symm.trans ht') (by omega) (by omega)
      rw [mayFollow_unique hf hf', lexicalComplaint_unique hm hm']
    | endOfFile hc' => exact (whole e (not_completable_error _ _ _) hc').elim
  | @endOfFile names hc _ hf =>
    cases h' with
    | token e hc' hn => exact (whole e hn hc).elim
    | lexical e hc' => exact (whole e (not_completable_error _ _ _) hc).elim
    | endOfFile _ _ hf' => rw [mayFollow_unique hf hf']

theorem syntaxReport_not_program {file text : Str} {tokens : List Token} {m : Str} (h : SyntaxReport file text tokens m) :
    ¬ ∃ ns, Program tokens ns := by
  rintro ⟨ns, hp⟩
  cases h with
  | @token pre post t _ _ e _ hn => exact hn ⟨post, ns, by rw [List.append_assoc, List.singleton_append, ← e]; exact hp⟩
  | @lexical pre x l _ _ _ _ e => exact program_no_error hp x l (by rw [e]; simp)
  | endOfFile _ hn => exact hn ⟨ns, hp⟩

/-! ### Programs that are not valid -/

theorem directiveText_eq (e : DirectiveError) : e.display = directiveText e := by
  cases e with
  | incorrectNumberOfParameters name count needed orMore =>
    cases orMore <;>
    · show _ ++ _ ++ _ ++ _ ++ _ ++ _ ++ _ = _
      simp only [directiveText, say_cons, say_nil, List.append_assoc, List.append_nil, dec, showDec]
      rfl
  | directiveRequiresOneNumericLiteral name =>
    show _ ++ _ ++ _ = _
    simp only [directiveText, say_cons, say_nil, List.append_assoc, List.append_nil]
  | allNumericParametersMustBeByteLiterals name value =>
    show _ ++ _ ++ _ ++ _ ++ _ = _
    simp only [directiveText, say_cons, say_nil, List.append_assoc, List.append_nil, hexa, showHexUpper]
  | unrecognizedDirective name =>
    show _ ++ _ ++ _ = _
    simp only [directiveText, say_cons, say_nil, List.append_assoc, List.append_nil]

theorem instructionText_eq (e : InstructionError) : e.display = instructionText e := by
  cases e with
  | unableToResolveLabel name => exact unresolved_text name
  | expectingEightBitValue value => exact eightBit_text value
  | expectingFourBitValue value => exact fourBit_text value
  | noMatchingFormat m fields =>
    cases fields with
    | none =>
      show _ ++ _ ++ _ = _
      simp only [instructionText, say_cons, say_nil, List.append_assoc, List.append_nil]
    | some fields =>
      show _ ++ _ ++ _ ++ _ ++ _ = _
      simp only [instructionText, say_cons, say_nil, List.append_assoc, List.append_nil]

/-- What is said of the statement at fault. -/
theorem faultText_eq {nodes pre : List Node} {n : Node} {e : SemanticError} (h : AtFault nodes pre n e) :
    e.display = faultText e := by
  obtain ⟨post, _, ⟨_, hf⟩ | ⟨labels, loc, m, fields, reason, _, _, _, _, _, rfl⟩⟩ := h
  · cases hf with
    | invalid _ =>
      simp only [SemanticError.display, faultText, shownLoc_eq, directiveText_eq, say_cons, say_nil, List.append_assoc,
        List.append_nil]
    | tooLarge _ _ =>
      simp only [SemanticError.display, faultText, shownLoc_eq, say_cons, say_nil, Directive.display, Directive.size,
        dec, showDec, List.append_assoc, List.append_nil]
      rfl
    | overflow _ _ _ _ =>
      simp only [SemanticError.display, faultText, shownLoc_eq, say_cons, say_nil, Directive.display, dec, showDec,
        List.append_assoc, List.append_nil]
      rfl
    | stray _ _ =>
      simp only [SemanticError.display, faultText, shownLoc_eq, say_cons, say_nil, List.append_assoc, List.append_nil]
      rfl
    | redefined _ =>
      simp only [SemanticError.display, faultText, shownLoc_eq, say_cons, say_nil, List.append_assoc, List.append_nil]
    | instructionOverflow _ _ =>
      simp only [SemanticError.display, faultText, shownLoc_eq, say_cons, say_nil, List.append_assoc, List.append_nil]
      rfl
  · simp only [SemanticError.display, faultText, shownLoc_eq, instructionText_eq, say_cons, say_nil, List.append_assoc,
      List.append_nil]

theorem assemble_atFault {nodes : List Node} {e : SemanticError} :
    assemble nodes = .ret (.error e) ↔ ∃ pre n, AtFault nodes pre n e := by
  rw [C104_error]
  constructor
  · rintro (⟨pre, n, post, h1, h2, h3⟩ | ⟨labels, pre, loc, m, fields, post, reason, h1, h2, h3, h4, h5, h6⟩)
    · exact ⟨pre, n, post, h1, .inl ⟨h2, h3⟩⟩
    · exact ⟨pre, _, post, h3, .inr ⟨labels, loc, m, fields, reason, h1, h2, rfl, h4, h5, h6⟩⟩
  · rintro ⟨pre, n, post, h1, ⟨h2, h3⟩ | ⟨labels, loc, m, fields, reason, h1', h2, rfl, h4, h5, h6⟩⟩
    · exact .inl ⟨pre, n, post, h1, h2, h3⟩
    · exact .inr ⟨labels, pre, loc, m, fields, post, reason, h1', h2, h1, h4, h5, h6⟩

/-! ### Valid programs -/

theorem pairsWhere_filter {α : Type} {p : α → α → Bool} {q : α → Bool} (h : ∀ a b, p a b = true → q a = true ∧ q b = true)
    (l : List α) : pairsWhere p (l.filter q) = pairsWhere p l := by
  induction l with
  | nil => rfl
  | cons a rest ih =>
    have hf : (rest.filter q).filter (p a) = rest.filter (p a) := by
      rw [List.filter_filter]
      refine List.filter_congr fun b _ => ?_
      cases hp : p a b with
      | false => rfl
      | true => simp [(h a b hp).2]
    by_cases ha : q a = true
    · rw [List.filter_cons_of_pos ha]
      simp only [pairsWhere, ih, hf]
    · rw [List.filter_cons_of_neg ha]
      have : rest.filter (p a) = [] := by
        rw [List.filter_eq_nil_iff]
        intro b _ hp
        exact ha (h a b hp).1
      simp only [pairsWhere, ih, this, List.map_nil, List.nil_append]

theorem shares_nonEmpty {a b : DataRange} (h : Shares a b) : a.data ≠ [] ∧ b.data ≠ [] := by
  obtain ⟨x, ⟨h1, h2⟩, h3, h4⟩ := h
  unfold rangeEnd at h2 h4
  constructor
  · intro e
    rw [e] at h2
    simp at h2
    omega
  · intro e
    rw [e] at h4
    simp at h4
    omega

theorem collisions_eq {sections : List DataRange} (h : ∀ r ∈ nonEmpty sections, rangeEnd r < 4096) :
    collisions sections = findOverlappingRanges (nonEmpty sections) := by
  unfold collisions
  rw [findOverlapping_eq_pairs, ← pairsWhere_filter (q := fun r : DataRange => decide (r.data ≠ []))]
  · refine pairsWhere_congr fun a ha b hb => ?_
    have hi := intersects_iff_of_lt (h a ha) (h b hb)
    cases hx : a.intersects b with
    | true => simpa using hi.1 hx
    | false =>
      simp only [decide_eq_false_iff_not]
      intro hs
      rw [hi.2 hs] at hx
      cases hx
  · intro a b hab
    have := shares_nonEmpty (a := a) (b := b) (by simpa using hab)
    simpa using this

theorem collisions_nil {sections : List DataRange} :
    collisions sections = [] ↔ sections.Pairwise fun a b => ¬ Shares a b := by
  unfold collisions
  rw [pairsWhere_eq_nil]
  simp

theorem hasSections_iff [Target] {file text : Str} {sections : List DataRange} :
    HasSections wordBinary file text sections ↔ ∃ tokens nodes labels, scan file text = .ret tokens ∧
      parse tokens = .ret (.ok nodes) ∧ Valid nodes labels ∧ Sections labels 0 nodes sections ∧
      assemble nodes = .ret (.ok (nonEmpty sections)) := by
  constructor
  · rintro ⟨tokens, nodes, labels, h1, h2, h3, h4⟩
    obtain ⟨hc, hl, _⟩ := valid_iff.1 h3
    exact ⟨tokens, nodes, labels, (scan_iff_lex _ _ _).2 h1, (parse_ok_iff _ _).2 h2, h3, h4,
      assemble_ok_iff.2 ⟨labels, sections, hc, hl, h4, rfl⟩⟩
  · rintro ⟨tokens, nodes, labels, h1, h2, h3, h4, _⟩
    exact ⟨tokens, nodes, labels, (scan_iff_lex _ _ _).1 h1, (parse_ok_iff _ _).1 h2, h3, h4⟩

theorem hasSections_of_assembled [Target] {file text : Str} {tokens : List Token} {nodes : List Node} {ranges : List DataRange}
    (hs : scan file text = .ret tokens) (hp : parse tokens = .ret (.ok nodes)) (ha : assemble nodes = .ret (.ok ranges)) :
    ∃ sections, HasSections wordBinary file text sections ∧ ranges = nonEmpty sections := by
  obtain ⟨labels', hv⟩ := (C34_valid nodes).1 ⟨ranges, ha⟩
  obtain ⟨labels, secs, hc, hl, hsec, rfl⟩ := assemble_ok_iff.1 ha
  obtain ⟨_, hl', hi⟩ := valid_iff.1 hv
  exact ⟨secs, ⟨tokens, nodes, labels', (scan_iff_lex _ _ _).1 hs, (parse_ok_iff _ _).1 hp, hv,
    sections_congr (labelsOf_congr hl hl') hsec⟩, rfl⟩

theorem fileOf_lines {bs : List (Nat × List U8)} {hex : Str} : FileOf bs hex ↔ ∃ lines, Each BlockLine bs lines ∧
    hex = (lines ++ [":00000001FF".toList]).flatMap (· ++ ['\n']) := by
  constructor
  · rintro ⟨lines, h1, rfl⟩
    refine ⟨lines, h1, ?_⟩
    rw [List.flatMap_append]
    rfl
  · rintro ⟨lines, h1, rfl⟩
    refine ⟨lines, h1, ?_⟩
    rw [List.flatMap_append]
    rfl

theorem allBlocks_all {X : List DataRange} {bs : List (Nat × List U8)} (h : AllBlocks (nonEmpty X) bs) : AllBlocks X bs := by
  obtain ⟨bs', h'⟩ := allBlocks_exists X
  rw [allBlocks_unique h (allBlocks_nonEmpty h')]
  exact h'

/-- The object file of a text. -/
theorem hasObject_iff [Target] {file text hex : Str} : HasObject wordBinary file text hex ↔ ObjectText file text hex := by
  constructor
  · rintro ⟨sections, blocks, h1, h2, h3, h4⟩
    obtain ⟨tokens, nodes, labels, hs, hp, _, _, ha⟩ := hasSections_iff.1 h1
    have hb := ranges_bound ha
    have ho : findOverlappingRanges (nonEmpty sections) = [] := by
      rw [← collisions_eq fun r hr => by have := (hb r hr).2; omega]
      exact collisions_nil.2 h2
    obtain ⟨hex', hx, _⟩ := C44_assembled nodes _ ha ho
    obtain ⟨bs, lines, g1, g2, _, g4⟩ := ihex_blocks (fun r hr => by
      have := (hb r hr).2
      unfold memorySize
      omega) hx
    obtain ⟨lines', g5, rfl⟩ := fileOf_lines.1 h4
    obtain rfl := allBlocks_unique g1 (allBlocks_nonEmpty h3)
    obtain rfl := lines_unique g2 g5
    exact ⟨tokens, nodes, _, hs, hp, ha, ho, g4 ▸ hx⟩
  · rintro ⟨tokens, nodes, ranges, hs, hp, ha, ho, hx⟩
    have hb := ranges_bound ha
    obtain ⟨sections, h1, rfl⟩ := hasSections_of_assembled hs hp ha
    obtain ⟨bs, lines, g1, g2, _, g4⟩ := ihex_blocks (fun r hr => by
      have := (hb r hr).2
      unfold memorySize
      omega) hx
    refine ⟨sections, bs, h1, ?_, allBlocks_all g1, fileOf_lines.2 ⟨lines, g2, g4⟩⟩
    rw [← collisions_nil, collisions_eq fun r hr => by have := (hb r hr).2; omega]
    exact ho

/-! ### The tool -/

/-- What is reported is what is specified. -/
theorem refused_run [Target] {program input text : Str} {events : List Event} (env : Env) (output : Str)
    (h : Refused wordBinary program input text events) :
    assembleText env program input output text = ⟨events, .code 1⟩ := by
  cases h with
  | syntactic hl hr =>
    obtain ⟨message, h1, h2⟩ := C81_syntax env program input output text _ ((scan_iff_lex _ _ _).2 hl)
      (syntaxReport_not_program hr)
    rw [h2, syntaxReport_unique hr h1]
  | @semantic tokens nodes pre n e hl hp hf =>
    unfold assembleText
    simp only [(scan_iff_lex _ _ _).2 hl, (parse_ok_iff _ _).2 hp, assemble_atFault.2 ⟨pre, n, hf⟩, faultText_eq hf]
  | @overlap sections hs ho =>
    obtain ⟨tokens, nodes, labels, h1, h2, _, _, ha⟩ := hasSections_iff.1 hs
    have hb := ranges_bound ha
    have hc := collisions_eq (sections := sections) fun r hr => by have := (hb r hr).2; omega
    rw [hc] at ho ⊢
    exact C76_overlap env program input output text tokens nodes _ h1 h2 ha ho

/-- The object file is written. -/
theorem object_run [Target] {input text hex : Str} (env : Env) (program output : Str)
    (h : HasObject wordBinary input text hex) :
    assembleText env program input output text = writeResult env program output hex := by
  obtain ⟨tokens, nodes, ranges, h1, h2, h3, h4, h5⟩ := hasObject_iff.1 h
  unfold assembleText
  simp [h1, h2, h3, h4, h5]

/-- A text has an object file or is reported. -/
theorem refused_or_object [Target] (program input text : Str) :
    (∃ events, Refused wordBinary program input text events) ∨ ∃ hex, HasObject wordBinary input text hex := by
  obtain ⟨tokens, hs, hl⟩ := scan_lex input text
  by_cases hp : ∃ ns, Program tokens ns
  · obtain ⟨nodes, hp⟩ := hp
    cases ha : assemble nodes with
    | panic => exact (assemble_no_panic (program_registers hp) ha).elim
    | ret r =>
      cases r with
      | error e =>
        obtain ⟨pre, n, hf⟩ := assemble_atFault.1 ha
        exact .inl ⟨_, .semantic hl hp hf⟩
      | ok ranges =>
        obtain ⟨sections, h1, rfl⟩ := hasSections_of_assembled hs ((parse_ok_iff _ _).2 hp) ha
        have hb := ranges_bound ha
        have hc := collisions_eq (sections := sections) fun r hr => by have := (hb r hr).2; omega
        by_cases ho : findOverlappingRanges (nonEmpty sections) = []
        · obtain ⟨hex, hx, _⟩ := C44_assembled nodes _ ha ho
          exact .inr ⟨hex, hasObject_iff.2 ⟨tokens, nodes, _, hs, (parse_ok_iff _ _).2 hp, ha, ho, hx⟩⟩
        · exact .inl ⟨_, .overlap h1 (by rw [hc]; exact ho)⟩
  · obtain ⟨message, h1, _⟩ := C81_syntax ⟨fun _ => .ok (), fun _ => .ok [], fun _ => .ok (), fun _ _ => .ok ()⟩ program input
      input text tokens hs hp
    exact .inl ⟨_, .syntactic hl h1⟩

/-- What is done is what is specified. -/
theorem handles_run [Target] {env : Env} {program input output : Str} {events : List Event} {exit : Exit}
    (h : Handles wordBinary env program input output events exit) :
    assembleFile env program input output = ⟨events, exit⟩ := by
  cases h with
  | unopened h =>
    rw [C76_open env program input output _ h]
    simp only [say_cons, say_nil, List.append_nil]
  | unread h1 h2 =>
    rw [C76_read env program input output _ h1 h2]
    simp only [say_cons, say_nil, List.append_nil]
  | refused h1 h2 h3 =>
    unfold assembleFile
    simp only [h1, h2, refused_run env output h3]
  | uncreated h1 h2 h3 h4 h5 =>
    unfold assembleFile
    simp only [h1, h2, object_run env program output h3, writeResult, if_neg h4, h5, logProgramError_report, say_cons, say_nil,
      List.append_nil, List.append_assoc]
  | unwritten h1 h2 h3 h4 h5 h6 =>
    unfold assembleFile
    simp only [h1, h2, object_run env program output h3, writeResult, if_neg h4, h5, utf8Bytes_eq, h6, logProgramError_report,
      say_cons, say_nil, List.append_nil, List.append_assoc, List.cons_append, List.nil_append]
  | written h1 h2 h3 h4 h5 h6 =>
    unfold assembleFile
    simp only [h1, h2, object_run env program output h3, writeResult, if_neg h4, h5, utf8Bytes_eq, h6, List.cons_append,
      List.nil_append]
  | unshown h1 h2 h3 h4 h5 =>
    subst h4
    unfold assembleFile
    simp only [h1, h2, object_run env program _ h3, writeResult, if_true, utf8Bytes_eq, h5, logProgramError_report,
      List.nil_append]
    rfl
  | shown h1 h2 h3 h4 h5 =>
    subst h4
    unfold assembleFile
    simp only [h1, h2, object_run env program _ h3, writeResult, if_true, utf8Bytes_eq, h5, List.nil_append]

theorem handles_total [Target] (env : Env) (program input output : Str) :
    ∃ events exit, Handles wordBinary env program input output events exit := by
  cases h1 : env.openInput input with
  | error reason => exact ⟨_, _, .unopened h1⟩
  | ok u =>
    cases h2 : env.readInput input with
    | error reason => exact ⟨_, _, .unread h1 h2⟩
    | ok text =>
      rcases refused_or_object program input text with ⟨events, h3⟩ | ⟨hex, h3⟩
      · exact ⟨_, _, .refused h1 h2 h3⟩
      by_cases h4 : output = "-".toList
      · cases h5 : env.writeOutput .stdout (utf8 hex) with
        | error p => exact ⟨_, _, .unshown h1 h2 h3 h4 h5⟩
        | ok u => exact ⟨_, _, .shown h1 h2 h3 h4 h5⟩
      · cases h5 : env.createOutput output with
        | error reason => exact ⟨_, _, .uncreated h1 h2 h3 h4 h5⟩
        | ok u =>
          cases h6 : env.writeOutput (.file output) (utf8 hex) with
          | error p => exact ⟨_, _, .unwritten h1 h2 h3 h4 h5 h6⟩
          | ok u => exact ⟨_, _, .written h1 h2 h3 h4 h5 h6⟩

theorem behaves_run [Target] {env : Env} {args : List Str} {events : List Event} {exit : Exit}
    (h : Behaves wordBinary env args events exit) : main getopts0214 env args = ⟨events, exit⟩ := by
  cases h with
  | empty => rfl
  | wrong h =>
    rw [C64_wrong env _ _ _ h]
    simp only [report, List.append_assoc]
  | help h1 h2 h3 => exact C64_help env _ _ _ h1 h2 h3
  | version h1 h2 h3 h4 => exact C64_version env _ _ _ h1 h2 h3 h4
  | usage h1 h2 h3 h4 h5 => exact C64_usage env _ _ _ h1 h2 h3 h4 h5
  | file h1 h2 h3 h4 h5 h6 h7 => exact ((C64_assembles env _ _ _ _ h1 h2 h3 h4 h5).1 _ h6).trans (handles_run h7)
  | standard h1 h2 h3 h4 h5 h6 h7 => exact ((C64_assembles env _ _ _ _ h1 h2 h3 h4 h5).2 h6).trans (handles_run h7)

theorem behaves_total [Target] (env : Env) (args : List Str) : ∃ events exit, Behaves wordBinary env args events exit := by
  cases args with
  | nil => exact ⟨_, _, .empty⟩
  | cons program words =>
    rcases CommandLine.says_or_wrong words with ⟨said, h1, h2⟩ | ⟨fault, h⟩
    · by_cases h3 : Said.help ∈ said
      · exact ⟨_, _, .help h1 h2 h3⟩
      by_cases h4 : Said.version ∈ said
      · exact ⟨_, _, .version h1 h2 h3 h4⟩
      by_cases h5 : (files said).length = 1
      · obtain ⟨input, h5⟩ := List.length_eq_one_iff.1 h5
        by_cases h6 : ∃ output, Said.output output ∈ said
        · obtain ⟨output, h6⟩ := h6
          obtain ⟨events, exit, h7⟩ := handles_total env program input output
          exact ⟨_, _, .file h1 h2 h3 h4 h5 h6 h7⟩
        · obtain ⟨events, exit, h7⟩ := handles_total env program input "a.hex".toList
          exact ⟨_, _, .standard h1 h2 h3 h4 h5 (fun o ho => h6 ⟨o, ho⟩) h7⟩
      · exact ⟨_, _, .usage h1 h2 h3 h4 h5⟩
    · exact ⟨_, _, .wrong h⟩

end C8S
