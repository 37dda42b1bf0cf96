import Verif.Proofs.Respell
import Verif.Props.Text

/- C82: letter case. C83: notations of numbers. C84: replacing a name throughout a text. -/

namespace C8S

open Spec

/-! ### C82: letter case -/

/-- C82: texts that only differ in the case of letters have the same tokens at the same places, lexical errors
included, but for the case of letters in names, strings and comments. -/
theorem C82_tokens [Target] (file text text' : Str) (h : SameLetters text text') (ts : List Token) (hs : scan file text = .ret ts) :
    ∃ ts', scan file text' = .ret ts' ∧ Each Recased ts ts' := by
  rw [scan_iff_lex] at hs
  obtain ⟨ts', h1, h2⟩ := lex_recased hs .nil h
  exact ⟨ts', (scan_iff_lex _ _ _).2 h1, h2⟩

namespace RespellExample

def at' (line col len : Nat) : Loc := ⟨[], line, col, len⟩

/-- `Ld v1, $aB ; Set` -/
def setMixed : List Token := [.identifier "Ld".toList (at' 1 1 2), .identifier "v1".toList (at' 1 4 2), .comma (at' 1 6 1),
  .numericLiteral 0xAB (at' 1 8 3), .singleLineComment "; Set".toList (at' 1 12 5)]

/-- `lD V1, $Ab ; set` -/
def setOther : List Token := [.identifier "lD".toList (at' 1 1 2), .identifier "V1".toList (at' 1 4 2), .comma (at' 1 6 1),
  .numericLiteral 0xAB (at' 1 8 3), .singleLineComment "; set".toList (at' 1 12 5)]

theorem scan_mixed : scan [] "Ld v1, $aB ; Set".toList = .ret setMixed := by decide +kernel

theorem scan_other : scan [] "lD V1, $Ab ; set".toList = .ret setOther := by decide +kernel

theorem accepts {file text : Str} {ts : List Token} {ns : List Node} {r : List DataRange} (hs : scan file text = .ret ts)
    (hp : parse ts = .ret (.ok ns)) (ha : assemble ns = .ret (.ok r)) : Describes wordBinary file text (image r) :=
  (describes_iff _ _ _).2 ⟨ts, ns, r, hs, hp, ha, rfl⟩

theorem rejects {file text : Str} {ts : List Token} {ns : List Node} {e : SemanticError} (hs : scan file text = .ret ts)
    (hp : parse ts = .ret (.ok ns)) (ha : assemble ns = .ret (.error e)) (bytes : List (Nat × U8)) :
    ¬ Describes wordBinary file text bytes := by
  rw [describes_iff]
  rintro ⟨ts', ns', r, h1, h2, h3, _⟩
  rw [hs] at h1
  cases h1
  rw [hp] at h2
  cases h2
  rw [ha] at h3
  cases h3

end RespellExample

open RespellExample

example : SameLetters "Ld v1, $aB ; Set".toList "lD V1, $Ab ; set".toList ∧ Each Recased setMixed setOther :=
  ⟨by decide, .cons (.name (by decide)) (.cons (.name (by decide)) (.cons .same (.cons .same (.cons (.comment (by decide)) .nil))))⟩

/-- C82: the case of letters in mnemonics and names of directives does not matter to the output. -/
theorem C82_program (ns ns' : List Node) (h : Each RecasedStatement ns ns') (ranges : List DataRange) :
    assemble ns = .ret (.ok ranges) ↔ assemble ns' = .ret (.ok ranges) :=
  ⟨assemble_recased h, assemble_recased (each_flip (fun _ _ => recasedStatement_symm) h)⟩

example : Each RecasedStatement [.directive noLoc "ORG".toList [.numeric 0x200], .instruction noLoc "CLS".toList []]
      [.directive noLoc "org".toList [.numeric 0x200], .instruction noLoc "Cls".toList []] ∧
    assemble [.directive noLoc "ORG".toList [.numeric 0x200], .instruction noLoc "CLS".toList []] =
      .ret (.ok [⟨0x200, [0x00, 0xE0]⟩]) :=
  ⟨.cons (.directive (by decide)) (.cons (.instruction (by decide)) .nil), rfl⟩

/-- C82: on source text: letter case only matters in strings, in the names of labels, and in those of the timers. -/
theorem C82_output [Target] (file text text' : Str) (ts ts' : List Token) (hs : scan file text = .ret ts)
    (hs' : scan file text' = .ret ts') (h : Each (HarmlessCase ts ts') ts ts') (bytes : List (Nat × U8)) :
    Describes wordBinary file text bytes ↔ Describes wordBinary file text' bytes := by
  have key : ∀ {text text' : Str} {ts ts' : List Token}, scan file text = .ret ts → scan file text' = .ret ts' →
      Each (HarmlessCase ts ts') ts ts' → Describes wordBinary file text bytes → Describes wordBinary file text' bytes := by
    intro text text' ts ts' hs hs' h hd
    rw [describes_iff] at hd ⊢
    obtain ⟨ts1, ns, r, h1, h2, h3, h4⟩ := hd
    rw [hs] at h1
    cases h1
    have hp := (parse_ok_iff _ _).1 h2
    have ht : Each (Turned id ns) ts ts' := by
      refine each_mono (fun t t' ht => ?_) h
      cases ht with
      | same =>
        cases t with
        | identifier s l =>
          refine .name (fun _ _ => rfl) (fun _ _ _ => .refl s) (fun _ _ _ => .refl s) ?_
          intro l m fs x _ _ ho
          rw [show renameField id x = x by cases x <;> rfl]
          exact ho
        | _ => constructor
      | comment _ => exact .comment
      | name hl hn _ _ hx =>
        refine .name (fun l hm => (hn (program_defines hp hm)).elim) (fun _ _ _ => hl) (fun _ _ _ => hl) ?_
        intro l m fs x hm hxf ho
        cases ho with
        | register hr =>
          have : ∀ {s f}, RegisterNamed s f → renameField id f = f := by
            intro s f _
            cases f <;> rfl
          rw [this hr]
          exact .register (register_recased hr hl hx)
        | label hr =>
          obtain ⟨l', hm'⟩ := assembled_uses h3 hm hxf
          exact (hn (program_defines hp hm')).elim
    obtain ⟨ns', hp', he⟩ := program_turned hp (fun _ h => h) ht
    rw [renameNode_id, List.map_id] at he
    exact ⟨ts', ns', r, hs', (parse_ok_iff _ _).2 hp', assemble_recased he h3, h4⟩
  refine ⟨key hs hs' h, key hs' hs (each_flip (fun t t' ht => ?_) h)⟩
  cases ht with
  | same => exact .same
  | name h1 h2 h3 h4 h5 => exact .name h1.symm h3 h2 h5 h4
  | comment h => exact .comment h.symm

example : Each (HarmlessCase setMixed setOther) setMixed setOther ∧
    Describes wordBinary [] "Ld v1, $aB ; Set".toList [(0, 0x61), (1, 0xAB)] := by
  have no : ∀ {ts : List Token} {s : Str}, (∀ l, .labelMarker l ∉ ts) → ¬ DefinesLabel ts s := by
    rintro ts s h ⟨p, l, l', r, rfl⟩
    exact h l' (by simp)
  have h1 : ∀ l, .labelMarker l ∉ setMixed := by simp [setMixed]
  have h2 : ∀ l, .labelMarker l ∉ setOther := by simp [setOther]
  refine ⟨.cons (.name (by decide) (no h1) (no h2) (by decide) (by decide))
    (.cons (.name (by decide) (no h1) (no h2) (by decide) (by decide))
      (.cons .same (.cons .same (.cons (.comment (by decide)) .nil)))), ?_⟩
  exact accepts (ns := [.instruction (at' 1 1 2) "Ld".toList [.generalPurposeRegister 1, .numericLiteral 0xAB]])
    (r := [⟨0, [0x61, 0xAB]⟩]) scan_mixed rfl rfl

/-- C82: in strings, names of labels and names of timers it does matter: each of these texts is as the one before it but
for letter case. -/
theorem C82_matters :
    (Describes wordBinary [] ".db \"a\"\n".toList [(0, 0x61)] ∧ Describes wordBinary [] ".db \"A\"\n".toList [(0, 0x41)]) ∧
    (Describes wordBinary [] "a:jp a\n".toList [(0, 0x10), (1, 0)] ∧ ∀ bytes, ¬ Describes wordBinary [] "a:jp A\n".toList bytes) ∧
    (Describes wordBinary [] "ld v0,dt\n".toList [(0, 0xF0), (1, 0x07)] ∧
      ∀ bytes, ¬ Describes wordBinary [] "ld v0,Dt\n".toList bytes) := by
  refine ⟨⟨?_, ?_⟩, ⟨?_, ?_⟩, ?_, ?_⟩
  · exact accepts (ts := [.directiveMarker (at' 1 1 1), .identifier "db".toList (at' 1 2 2), .stringLiteral "a".toList (at' 1 5 3),
        .newline (at' 1 8 1)]) (ns := [.directive (at' 1 2 2) "db".toList [.string "a".toList]]) (r := [⟨0, [0x61]⟩])
      (by decide +kernel) rfl rfl
  · exact accepts (ts := [.directiveMarker (at' 1 1 1), .identifier "db".toList (at' 1 2 2), .stringLiteral "A".toList (at' 1 5 3),
        .newline (at' 1 8 1)]) (ns := [.directive (at' 1 2 2) "db".toList [.string "A".toList]]) (r := [⟨0, [0x41]⟩])
      (by decide +kernel) rfl rfl
  · exact accepts (ts := [.identifier "a".toList (at' 1 1 1), .labelMarker (at' 1 2 1), .identifier "jp".toList (at' 1 3 2),
        .identifier "a".toList (at' 1 6 1), .newline (at' 1 7 1)])
      (ns := [.label (at' 1 1 1) "a".toList, .instruction (at' 1 3 2) "jp".toList [.identifier "a".toList]])
      (r := [⟨0, [0x10, 0]⟩]) (by decide +kernel) rfl rfl
  · exact rejects (ts := [.identifier "a".toList (at' 1 1 1), .labelMarker (at' 1 2 1), .identifier "jp".toList (at' 1 3 2),
        .identifier "A".toList (at' 1 6 1), .newline (at' 1 7 1)])
      (ns := [.label (at' 1 1 1) "a".toList, .instruction (at' 1 3 2) "jp".toList [.identifier "A".toList]])
      (e := .assemblyFailed (at' 1 3 2) (.unableToResolveLabel "A".toList)) (by decide +kernel) rfl rfl
  · exact accepts (ts := [.identifier "ld".toList (at' 1 1 2), .identifier "v0".toList (at' 1 4 2), .comma (at' 1 6 1),
        .identifier "dt".toList (at' 1 7 2), .newline (at' 1 9 1)])
      (ns := [.instruction (at' 1 1 2) "ld".toList [.generalPurposeRegister 0, .delayTimer]])
      (r := [⟨0, [0xF0, 0x07]⟩]) (by decide +kernel) rfl rfl
  · exact rejects (ts := [.identifier "ld".toList (at' 1 1 2), .identifier "v0".toList (at' 1 4 2), .comma (at' 1 6 1),
        .identifier "Dt".toList (at' 1 7 2), .newline (at' 1 9 1)])
      (ns := [.instruction (at' 1 1 2) "ld".toList [.generalPurposeRegister 0, .identifier "Dt".toList]])
      (e := .assemblyFailed (at' 1 1 2) (.unableToResolveLabel "Dt".toList)) (by decide +kernel) rfl rfl

/-! ### C83: notations of numbers -/

/-- C83: every number a program can contain can be written with `$`, with `#`, in decimal, and with `%`. -/
theorem C83_notations [Target] (n : Nat) (h : n ≤ 4095) :
    Lexeme wordBinary ('$' :: Nat.toDigits 16 n) (.numericLiteral n) ∧
    Lexeme wordBinary ('#' :: Nat.toDigits 16 n) (.numericLiteral n) ∧
    Lexeme wordBinary (Nat.toDigits 10 n) (.numericLiteral n) ∧
    Lexeme wordBinary ('%' :: Nat.toDigits 2 n) (.numericLiteral n) := by
  refine ⟨lexeme_hexDigits _ h, ?_, lexeme_toDigits _ h, ?_⟩
  · have := Lexeme.hex (bin := wordBinary) (c := '#') (s := Nat.toDigits 16 n) (.inr rfl) Nat.toDigits_ne_nil
      ((Nat.length_toDigits_le_iff (by omega) (by omega)).2 (by omega)) (toDigits_all (by omega) digitChar_hexadecimal n)
    rwa [positional_toDigits (by omega) (by omega)] at this
  · have e := binary_toDigits n h
    have := Lexeme.binary (bin := wordBinary) (s := Nat.toDigits 2 n) Nat.toDigits_ne_nil
      (toDigits_all (by omega) (by decide) n) (by omega)
    rwa [e] at this

example : Nat.toDigits 16 0xAB = "ab".toList ∧ Nat.toDigits 10 0xAB = "171".toList ∧ Nat.toDigits 2 0xAB = "10101011".toList := by
  decide

theorem scan_one [Target] {file s : Str} {n : Nat} (h : Lexeme wordBinary s (.numericLiteral n)) :
    scan file s = .ret [.numericLiteral n (locate file [] s)] := by
  have hL : Longest wordBinary s [] (.numericLiteral n) := longest_iff.2 ⟨h, by simp⟩
  have := Spec.Lex.token (file := file) (before := []) (blanks := []) (by simp) hL (fun ⟨e, h⟩ => by
    have := congrFun h noLoc
    cases this) (.done (by simp))
  rw [scan_iff_lex]
  simpa using this

/-- C83: read alone, each of the four gives the number. -/
theorem C83_read [Target] (file : Str) (n : Nat) (h : n ≤ 4095) :
    ∀ s ∈ ['$' :: Nat.toDigits 16 n, '#' :: Nat.toDigits 16 n, Nat.toDigits 10 n, '%' :: Nat.toDigits 2 n],
      scan file s = .ret [.numericLiteral n (locate file [] s)] := by
  obtain ⟨h1, h2, h3, h4⟩ := C83_notations n h
  simp only [List.mem_cons, List.not_mem_nil, or_false]
  rintro s (rfl | rfl | rfl | rfl)
  · exact scan_one h1
  · exact scan_one h2
  · exact scan_one h3
  · exact scan_one h4

example : scan [] "%10101011".toList = .ret [.numericLiteral 0xAB ⟨[], 1, 1, 9⟩] := by rfl

/-- C83: a number in a text may be written in any other notation, with the same output. -/
theorem C83_number [Target] (file a s s' b : Str) (ta : List Token) (n : Nat) (ha : scan file a = .ret ta) (hp : Apart ta)
    (hw : ¬ EndsInWord a) (hs : Lexeme wordBinary s (.numericLiteral n)) (hs' : Lexeme wordBinary s' (.numericLiteral n))
    (hb : ∀ d r, b = d :: r → ¬ (NameChar d ∨ d = '.')) (bytes : List (Nat × U8)) :
    Describes wordBinary file (a ++ (s ++ b)) bytes ↔ Describes wordBinary file (a ++ (s' ++ b)) bytes := by
  have hE : ¬ IsError (.numericLiteral n) := fun ⟨e, h⟩ => by
    have := congrFun h noLoc
    cases this
  have hj : ∀ {s : Str}, Lexeme wordBinary s (.numericLiteral n) → ∀ d r, b = d :: r → ¬ Joins wordBinary s d := by
    intro s hs d r e hj
    rcases joins_char hs hj with ⟨t, rfl, _⟩ | ⟨_, h⟩
    · have := congrFun (lexeme_comment hs).2 noLoc
      cases this
    · exact hb d r e h
  obtain ⟨ts, ts', h1, h2, h3⟩ := scan_respelled ha hp hw hs hs' hE (hj hs) (hj hs')
  exact ⟨describes_bare h1 h2 h3, describes_bare h2 h1 h3.symm⟩

example : scan [] "jp ".toList = .ret [.identifier "jp".toList (at' 1 1 2)] ∧ Apart [.identifier "jp".toList (at' 1 1 2)] ∧
    ¬ EndsInWord "jp ".toList ∧ Lexeme wordBinary "$200".toList (.numericLiteral 512) ∧
    Lexeme wordBinary "512".toList (.numericLiteral 512) ∧ Describes wordBinary [] ("jp ".toList ++ ("$200".toList ++ "\n".toList))
      [(0, 0x12), (1, 0)] := by
  refine ⟨by decide +kernel, ⟨by simp [NoLexError], ?_⟩, ?_, (C83_notations 512 (by omega)).1, (C83_notations 512 (by omega)).2.2.1, ?_⟩
  · rintro t ht ⟨s, l, rfl⟩
    simp at ht
  · rintro ⟨p, c, e, hc⟩
    have : c = ' ' := by simpa using (congrArg List.getLast? e).symm
    subst this
    exact absurd hc (by decide)
  · exact accepts (ts := [.identifier "jp".toList (at' 1 1 2), .numericLiteral 0x200 (at' 1 4 4), .newline (at' 1 8 1)])
      (ns := [.instruction (at' 1 1 2) "jp".toList [.numericLiteral 0x200]]) (r := [⟨0, [0x12, 0]⟩]) (by decide +kernel) rfl rfl

/-- C83: and so may all the numbers of a text at once, with other blanks between the tokens. -/
theorem C83_respelled [Target] (file text text' : Str) (h : Respelled wordBinary (· = ·) text text') (bytes : List (Nat × U8)) :
    Describes wordBinary file text bytes ↔ Describes wordBinary file text' bytes := by
  obtain ⟨ts, ts', h1, h2, h3⟩ := respelled_cut h
  have e : ts = ts' := by
    clear h1 h2
    induction h3 with
    | nil => rfl
    | cons h _ ih => rw [h, ih]
  subst e
  exact ⟨describes_same h1 h2 fun _ h => h, describes_same h2 h1 fun _ h => h⟩

example : Respelled wordBinary (· = ·) "$200 ".toList " 512".toList := by
  refine .token (blanks := []) (blanks' := " ".toList) (s := "$200".toList) (s' := "512".toList) (rest := " ".toList) (rest' := [])
    (by simp) (by decide) (longest_iff.2 ⟨(C83_notations 512 (by omega)).1, ?_⟩)
    (longest_iff.2 ⟨(C83_notations 512 (by omega)).2.2.1, by simp⟩) ?_ ?_ rfl (.done (by decide) (by simp))
  · rintro d r e hj
    cases e
    rcases joins_char (C83_notations 512 (by omega)).1 hj with ⟨t, e, _⟩ | ⟨_, h⟩
    · cases e
    · exact absurd h (by decide)
  · exact fun ⟨e, h⟩ => by cases congrFun h noLoc
  · exact fun ⟨e, h⟩ => by cases congrFun h noLoc

/-! ### C84: replacing a name throughout a text -/

/-- C84: names may be replaced throughout a text, with the same output, if different names of labels stay different,
names of registers stay those of the same registers, no other name becomes one, and mnemonics and names of directives
change at most their letter case. -/
theorem C84_replaced [Target] (f : Str → Str) (file text text' : Str) (ts : List Token) (ns : List Node)
    (hs : scan file text = .ret ts) (hp : parse ts = .ret (.ok ns))
    (hinj : ∀ a b, Mentions ns a → Mentions ns b → f a = f b → a = b)
    (hr : ∀ s l, .identifier s l ∈ ts → ∀ r, RegisterNamed s r ↔ RegisterNamed (f s) r)
    (hd : ∀ l s xs, .directive l s xs ∈ ns → SameLetters s (f s))
    (hm : ∀ l s fs, .instruction l s fs ∈ ns → SameLetters s (f s))
    (h : Respelled wordBinary (fun t t' => t' = renameToken f t ∨ IsComment t ∧ IsComment t') text text')
    (bytes : List (Nat × U8)) : Describes wordBinary file text bytes ↔ Describes wordBinary file text' bytes := by
  obtain ⟨c, c', hc, hc', he⟩ := respelled_cut h
  have hP := (parse_ok_iff _ _).1 hp
  cases cut_unique hc (cut_of_scan hs (program_no_error hP))
  have hP1 : Program (ts.map bare) (ns.map bareNode) := (parse_ok_iff _ _).1 (parse_map nowhere hp)
  have ht : Each (Turned f (ns.map bareNode)) (ts.map bare) c' := by
    refine each_mem he fun t t' hmem hR => ?_
    rcases hR with rfl | ⟨⟨s, l, rfl⟩, ⟨s', l', rfl⟩⟩
    · cases t with
      | identifier s l =>
        obtain ⟨l1, hl1⟩ := mem_bare_identifier hmem
        refine .name (fun _ _ => rfl) (fun l xs h => ?_) (fun l fs h => ?_) ?_
        · obtain ⟨l', h'⟩ := mem_bare_directive h
          exact hd l' s xs h'
        · obtain ⟨l', h'⟩ := mem_bare_instruction h
          exact hm l' s fs h'
        · intro l m fs x _ _ ho
          cases ho with
          | register hx =>
            have : ∀ {s r}, RegisterNamed s r → renameField f r = r := by
              intro s r h
              cases r with
              | identifier s =>
                cases h with
                | special h => simp [specialNames] at h
              | _ => rfl
            rw [this hx]
            exact .register ((hr s l1 hl1 _).1 hx)
          | label hx => exact .label fun r hr' => hx r ((hr s l1 hl1 r).2 hr')
      | _ => constructor
    · exact .comment
  obtain ⟨ns', hP2, hE⟩ := program_turned hP1 (fun _ h => h) ht
  rw [describes_of_cut hc hP1, describes_of_cut hc' hP2]
  have hmen : ∀ a, Mentions (ns.map bareNode) a → Mentions ns a := by
    rintro a (⟨l, h⟩ | ⟨l, m, fs, h, hx⟩)
    · exact .inl (mem_bare_label h)
    · obtain ⟨l', h'⟩ := mem_bare_instruction h
      exact .inr ⟨l', m, fs, h', hx⟩
  have key : ∀ r, assemble (ns.map bareNode) = .ret (.ok r) ↔ assemble ns' = .ret (.ok r) := fun r =>
    (C57_renamed f (ns.map bareNode) (fun a b ha hb => hinj a b (hmen a ha) (hmen b hb)) r).trans (C82_program _ _ hE r)
  simp only [key]

namespace RespellExample

/-- `here: jp here` with the name replaced. -/
def jump (name : Str) (n : Nat) : List Token := [.identifier name (at' 1 1 n), .labelMarker (at' 1 (n + 1) 1),
  .identifier "jp".toList (at' 1 (n + 3) 2), .identifier name (at' 1 (n + 6) n), .newline (at' 1 (2 * n + 6) 1)]

def jumpNodes (name : Str) (n : Nat) : List Node := [.label (at' 1 1 n) name,
  .instruction (at' 1 (n + 3) 2) "jp".toList [.identifier name]]

theorem scan_here : scan [] "here: jp here\n".toList = .ret (jump "here".toList 4) := by decide +kernel

theorem scan_x : scan [] "x2: jp x2\n".toList = .ret (jump "x2".toList 2) := by decide +kernel

theorem respelled_here : Respelled wordBinary (fun t t' => t' = renameToken (fun s => if s = "here".toList then "x2".toList else s) t ∨
    IsComment t ∧ IsComment t') "here: jp here\n".toList "x2: jp x2\n".toList :=
  respelled_of_cut (cut_of_scan scan_here (by simp [NoLexError, jump])) (cut_of_scan scan_x (by simp [NoLexError, jump]))
    (.cons (.inl rfl) (.cons (.inl rfl) (.cons (.inl rfl) (.cons (.inl rfl) (.cons (.inl rfl) .nil)))))

theorem not_register {s : Str} (h : 2 < s.length) (h' : s ≠ "[i]".toList) (h'' : s ≠ "[I]".toList) (r : Field) : ¬ RegisterNamed s r := by
  intro hr
  cases hr with
  | special hm =>
    simp only [specialNames, List.mem_cons, Prod.mk.injEq, List.not_mem_nil, or_false] at hm
    rcases hm with ⟨rfl, _⟩ | ⟨rfl, _⟩ | ⟨rfl, _⟩ | ⟨rfl, _⟩ | ⟨rfl, _⟩ | ⟨rfl, _⟩ | ⟨rfl, _⟩ | ⟨rfl, _⟩ | ⟨rfl, _⟩ | ⟨rfl, _⟩ |
      ⟨rfl, _⟩ | ⟨rfl, _⟩ | ⟨rfl, _⟩ | ⟨rfl, _⟩
    all_goals first
      | exact h' rfl
      | exact h'' rfl
      | simp at h
  | general _ _ => simp at h

theorem not_register_x (r : Field) : ¬ RegisterNamed "x2".toList r := by
  intro hr
  generalize e : "x2".toList = s at hr
  cases hr with
  | special hm =>
    subst e
    simp [specialNames] at hm
  | general hv _ => rcases hv with rfl | rfl <;> cases e

end RespellExample

/-- C84: the name of a label may be replaced by another throughout a text, unless the new one is the name of a register
or a label already used, and the old one that of a register, an instruction or a directive of the text. -/
theorem C84_one [Target] (old new : Str) (file text text' : Str) (ts : List Token) (ns : List Node)
    (hs : scan file text = .ret ts) (hp : parse ts = .ret (.ok ns)) (hnew : ¬ Mentions ns new)
    (hold : ∀ r, ¬ RegisterNamed old r) (hreg : ∀ r, ¬ RegisterNamed new r)
    (hd : ∀ l xs, .directive l old xs ∉ ns) (hm : ∀ l fs, .instruction l old fs ∉ ns)
    (h : Respelled wordBinary (fun t t' => t' = renameToken (fun s => if s = old then new else s) t ∨ IsComment t ∧ IsComment t')
      text text') (bytes : List (Nat × U8)) :
    Describes wordBinary file text bytes ↔ Describes wordBinary file text' bytes := by
  refine C84_replaced _ file text text' ts ns hs hp ?_ ?_ ?_ ?_ h bytes
  · intro a b ha hb e
    by_cases h1 : a = old
    · by_cases h2 : b = old
      · rw [h1, h2]
      · simp only [if_pos h1, if_neg h2] at e
        rw [← e] at hb
        exact (hnew hb).elim
    · by_cases h2 : b = old
      · simp only [if_neg h1, if_pos h2] at e
        rw [e] at ha
        exact (hnew ha).elim
      · simpa only [if_neg h1, if_neg h2] using e
  · intro s l _ r
    by_cases h1 : s = old
    · simp only [if_pos h1]
      rw [h1]
      exact iff_of_false (hold r) (hreg r)
    · simp only [if_neg h1]
  · intro l s xs hmem
    have : s ≠ old := by
      rintro rfl
      exact hd l xs hmem
    simp only [if_neg this]
    exact .refl s
  · intro l s xs hmem
    have : s ≠ old := by
      rintro rfl
      exact hm l xs hmem
    simp only [if_neg this]
    exact .refl s

example : Describes wordBinary [] "here: jp here\n".toList [(0, 0x10), (1, 0)] ∧
    Describes wordBinary [] "x2: jp x2\n".toList [(0, 0x10), (1, 0)] := by
  have h := accepts (ns := jumpNodes "here".toList 4) (r := [⟨0, [0x10, 0]⟩]) scan_here rfl rfl
  refine ⟨h, (C84_one "here".toList "x2".toList [] _ _ _ (jumpNodes "here".toList 4) scan_here rfl ?_
    (not_register (by decide) (by decide) (by decide)) not_register_x ?_ ?_ respelled_here _).1 h⟩
  · rintro (⟨l, h⟩ | ⟨l, m, fs, h, h'⟩)
    · simp [jumpNodes] at h
    · simp only [jumpNodes, List.mem_cons, List.not_mem_nil, or_false, Node.instruction.injEq, reduceCtorEq, false_or] at h
      obtain ⟨_, _, rfl⟩ := h
      simp at h'
  · simp [jumpNodes]
  · simp [jumpNodes]

end C8S
