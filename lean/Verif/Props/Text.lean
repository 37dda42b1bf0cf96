import Verif.Proofs.Text

/- Properties of source texts under changes of layout, file name and locations: C14 (on texts) and C55. -/

namespace C8S

open Spec

/-! ### Blanks -/

/-- C14: a blank is never read as part of the token before it, unless that is a comment. -/
theorem C14_blank_separates [Target] (s : Str) (k : Loc → Token) (d : Char) (h : Lexeme wordBinary s k) (hd : Blank d) :
    Joins wordBinary s d ↔ ∃ t, s = ';' :: t := by
  constructor
  · intro hj
    rcases joins_char h hj with ⟨t, e, _⟩ | ⟨_, h'⟩
    · exact ⟨t, e⟩
    · exact (blank_not_name hd h').elim
  · rintro ⟨t, rfl⟩
    refine ⟨_, .comment (s := t ++ [d]) ?_⟩
    have := (lexeme_comment h).1
    simp [this, hd.2.symm]

example : ¬ Joins wordBinary "ld".toList ' ' ∧ Joins wordBinary ";x".toList ' ' := by
  refine ⟨fun h => ?_, (C14_blank_separates _ _ ' ' (.comment (by decide)) (by decide)).2 ⟨_, rfl⟩⟩
  obtain ⟨t, e⟩ := (C14_blank_separates _ _ ' ' (.name (c := 'l') (s := "d".toList) (by decide) (by decide)) (by decide)).1 h
  cases e

/-- C14: other blanks between the tokens give the same tokens but for their locations, hence the same statements. -/
theorem C14_respaced [Target] (file text text' : Str) (h : Respaced wordBinary text text') :
    ∃ tokens tokens', scan file text = .ret tokens ∧ scan file text' = .ret tokens' ∧
      tokens.map bare = tokens'.map bare ∧
      ∀ ns, parse tokens = .ret (.ok ns) →
        ∃ ns', parse tokens' = .ret (.ok ns') ∧ ns'.map bareNode = ns.map bareNode := by
  obtain ⟨ts, h1, h2⟩ := respaced_cut h
  obtain ⟨a, ha, _, e1⟩ := lex_of_cut h1 file []
  obtain ⟨b, hb, _, e2⟩ := lex_of_cut h2 file []
  refine ⟨a, b, (scan_iff_lex _ _ _).2 ha, (scan_iff_lex _ _ _).2 hb, by rw [e1, e2], ?_⟩
  intro ns hp
  obtain ⟨ns', h3, h4⟩ := program_bare (e1.trans e2.symm) ((parse_ok_iff _ _).1 hp)
  exact ⟨ns', (parse_ok_iff _ _).2 h3, h4⟩

/-- C14: other blanks between the tokens give the same output. -/
theorem C14_respaced_output [Target] (file text text' : Str) (h : Respaced wordBinary text text') (bytes : List (Nat × U8)) :
    Describes wordBinary file text bytes ↔ Describes wordBinary file text' bytes := by
  obtain ⟨ts, h1, h2⟩ := respaced_cut h
  exact ⟨describes_same h1 h2 fun _ h => h, describes_same h2 h1 fun _ h => h⟩

example : Respaced wordBinary "ld  v0 ,1".toList "\tld v0,  1 ".toList := by
  have h1 : Lexeme wordBinary "ld".toList (.identifier "ld".toList) := .name (by decide) (by decide)
  have h2 : Lexeme wordBinary "v0".toList (.identifier "v0".toList) := .name (by decide) (by decide)
  have h3 : Lexeme wordBinary "1".toList (.numericLiteral 1) := .decimal (s := "1".toList) (by decide) (by decide) (by decide)
  have gap : ∀ {s : Str} {k : Loc → Token}, Lexeme wordBinary s k → (∀ t, s ≠ ';' :: t) → ∀ {r : Str} {c : Char}, r.head? = some c →
      Blank c → ∀ d r', r = d :: r' → ¬ Joins wordBinary s d := by
    intro s k h hs r c hc hb d r' e hj
    subst e
    cases hc
    exact ((C14_blank_separates s k c h hb).1 hj).elim fun t e => hs t e
  refine Respaced.token (blanks := []) (blanks' := "\t".toList) (s := "ld".toList) (rest := "  v0 ,1".toList)
    (rest' := " v0,  1 ".toList) (by simp) (by decide) (longest_iff.2 ⟨h1, gap h1 (by simp) rfl (by decide : Blank ' ')⟩)
    (error_not_at (by simp)) (gap h1 (by simp) rfl (by decide : Blank ' ')) ?_
  have hcomma : ∀ {s : Str} {k : Loc → Token}, Lexeme wordBinary s k → (∀ t, s ≠ ';' :: t) → ¬ Joins wordBinary s ',' := by
    intro s k h hs hj
    rcases joins_char h hj with ⟨t, e, _⟩ | ⟨_, h⟩
    · exact hs t e
    · exact absurd h (by decide)
  refine Respaced.token (blanks := "  ".toList) (blanks' := " ".toList) (s := "v0".toList) (rest := " ,1".toList)
    (rest' := ",  1 ".toList) (by decide) (by decide) (longest_iff.2 ⟨h2, gap h2 (by simp) rfl (by decide : Blank ' ')⟩)
    (error_not_at (by simp)) (fun d r e => by cases e; exact hcomma h2 (by simp)) ?_
  refine Respaced.token (blanks := " ".toList) (blanks' := []) (s := ",".toList) (rest := "1".toList)
    (rest' := "  1 ".toList) (by decide) (by simp) (longest_iff.2 ⟨.comma, ?_⟩)
    (error_not_at (by simp)) (gap .comma (by simp) rfl (by decide : Blank ' ')) ?_
  · intro d r e hj
    obtain ⟨k, hk⟩ := hj
    exact absurd (lexeme_comma (t := [d]) hk).1 (by simp)
  · exact Respaced.token (blanks := []) (blanks' := "  ".toList) (s := "1".toList) (rest := []) (rest' := " ".toList)
      (by simp) (by decide) (longest_iff.2 ⟨h3, by simp⟩) (error_not_at (by simp))
      (gap h3 (by simp) rfl (by decide : Blank ' ')) (.done (by simp) (by decide))

/-- C14: the number and kind of blanks between two parts of a text does not matter, when the first does not end in a
comment. -/
theorem C14_amount [Target] (file a b w w' : Str) (ta : List Token) (ha : scan file a = .ret ta) (hn : NoLexError ta)
    (hc : ∀ t, ta.getLast? = some t → ¬ IsComment t) (hw : ∀ c ∈ w, Blank c) (hw' : ∀ c ∈ w', Blank c) (hne : w ≠ [])
    (hne' : w' ≠ []) (bytes : List (Nat × U8)) :
    Describes wordBinary file (a ++ w ++ b) bytes ↔ Describes wordBinary file (a ++ w' ++ b) bytes := by
  have hcut := cut_of_scan ha hn
  have hj : ∀ {w : Str}, (∀ c ∈ w, Blank c) → w ≠ [] → ∀ d r s k, w ++ b = d :: r → Lexeme wordBinary s k →
      (ta.map bare).getLast? = some (k noLoc) → ¬ Joins wordBinary s d := by
    intro w hw hne d r s k e hs hl
    cases w with
    | nil => exact (hne rfl).elim
    | cons c w =>
      cases e
      refine gap_joins hs ?_ (.inl (hw d List.mem_cons_self))
      rw [List.getLast?_map] at hl
      cases hta : ta.getLast? with
      | none =>
        rw [hta] at hl
        cases hl
      | some t =>
        have := hc t hta
        rw [hta] at hl
        simp only [Option.map_some, Option.some.injEq] at hl
        rw [← hl]
        rintro ⟨x, l, h⟩
        cases t <;> cases h
        exact this ⟨_, _, rfl⟩
  have key : ∀ {w w' : Str}, (∀ c ∈ w, Blank c) → (∀ c ∈ w', Blank c) → w ≠ [] → w' ≠ [] →
      Describes wordBinary file (a ++ w ++ b) bytes → Describes wordBinary file (a ++ w' ++ b) bytes := by
    intro w w' hw hw' hne hne' h
    obtain ⟨ts, hts⟩ := describes_tokens h
    rw [List.append_assoc] at hts
    obtain ⟨tb, rfl, h2⟩ := cut_split hcut (hj hw hne) hts
    have h3 := cut_append hcut (cut_blanks hw' (cut_unblank hw h2)) (hj hw' hne')
    rw [List.append_assoc] at h ⊢
    exact describes_same hts h3 (fun _ h => h) h
  exact ⟨key hw hw' hne hne', key hw' hw hne' hne⟩

example : scan [] "ld".toList = .ret [.identifier "ld".toList ⟨[], 1, 1, 2⟩] ∧
    (∀ c ∈ " \t\r".toList, Blank c) := ⟨by decide +kernel, by decide⟩

/-! ### Lines and comments -/

/-- C14: whole lines of nothing but blanks and comments may be added and removed between lines. -/
theorem C14_lines [Target] (file a lines b : Str) (ta tl : List Token) (ha : WholeLines a) (hl : WholeLines lines)
    (hta : scan file a = .ret ta) (hna : NoLexError ta) (htl : scan file lines = .ret tl)
    (hb : ∀ t ∈ tl, IsNewline t ∨ IsComment t) (bytes : List (Nat × U8)) :
    Describes wordBinary file (a ++ lines ++ b) bytes ↔ Describes wordBinary file (a ++ b) bytes := by
  have hca := cut_of_scan hta hna
  have hcl := cut_of_scan htl (by
    intro e l hm
    rcases hb _ hm with ⟨_, h⟩ | ⟨_, _, h⟩ <;> cases h)
  have hbl : AllBlank (tl.map bare) := by
    intro t ht
    obtain ⟨t', ht', rfl⟩ := List.mem_map.1 ht
    rcases hb t' ht' with ⟨l, rfl⟩ | ⟨x, l, rfl⟩
    · exact .inl ⟨_, rfl⟩
    · exact .inr ⟨_, _, rfl⟩
  rw [List.append_assoc]
  constructor
  · intro h
    obtain ⟨ts, hts⟩ := describes_tokens h
    obtain ⟨t1, rfl, h1⟩ := cut_split hca (whole_apart ha hca) hts
    obtain ⟨tb, rfl, h2⟩ := cut_split hcl (whole_apart hl hcl) h1
    exact describes_same hts (cut_append hca h2 (whole_apart ha hca)) (fun ns => (program_lines ha hca hbl).1) h
  · intro h
    obtain ⟨ts, hts⟩ := describes_tokens h
    obtain ⟨tb, rfl, h1⟩ := cut_split hca (whole_apart ha hca) hts
    exact describes_same hts (cut_lines ha hl hca hcl h1) (fun ns => (program_lines ha hca hbl).2) h

example : WholeLines "cls\n".toList ∧ WholeLines " ; one\n\n".toList ∧
    scan [] " ; one\n\n".toList = .ret [.singleLineComment "; one".toList ⟨[], 1, 2, 5⟩, .newline ⟨[], 1, 7, 1⟩,
      .newline ⟨[], 2, 1, 1⟩] :=
  ⟨.inr ⟨"cls".toList, rfl⟩, .inr ⟨" ; one\n".toList, rfl⟩, by decide +kernel⟩

/-- C14: a comment may be added at the end of a line. Partial: not after a directive without arguments, or with a
trailing comma (see `C14_text_claim_false`). -/
theorem C14_comment_added_partial [Target] (file a w c b : Str) (ta : List Token) (hta : scan file a = .ret ta) (hna : NoLexError ta)
    (ho : ¬ OpenDirective ta) (hw : ∀ x ∈ w, Blank x) (hc : '\n' ∉ c) (bytes : List (Nat × U8))
    (h : Describes wordBinary file (a ++ '\n' :: b) bytes) :
    Describes wordBinary file (a ++ w ++ ';' :: c ++ '\n' :: b) bytes := by
  have hca := cut_of_scan hta hna
  have hnl : ∀ d r, '\n' :: b = d :: r → d = '\n' := by
    intro d r e
    cases e
    rfl
  obtain ⟨ts, hts⟩ := describes_tokens h
  obtain ⟨tb, rfl, h1⟩ := cut_split hca (newline_apart hnl) hts
  obtain ⟨t, h2, h3⟩ := cut_comment hca hw hc hnl h1
  rw [show a ++ w ++ ';' :: c ++ '\n' :: b = a ++ (w ++ (';' :: c ++ '\n' :: b)) by simp]
  refine describes_same hts h2 ?_ h
  intro ns hp
  have hL : Longest wordBinary ['\n'] b .newline := longest_iff.2 ⟨.newline, fun d r _ ⟨k, hk⟩ =>
    absurd (lexeme_newline (t := [d]) hk).1 (by simp)⟩
  obtain ⟨tb', rfl, _⟩ := cut_inv (blanks := []) (by simp) hL h1
  rcases h3 with rfl | ⟨p, x, y, e1, rfl⟩
  · have := program_add_comment (c := .singleLineComment (';' :: c) noLoc) ⟨_, rfl⟩ ⟨_, _, rfl⟩
      (fun hop => ho (openDirective_unbare hop)) hp
    simpa using this
  · rw [e1] at hp
    have := program_comment (p := p) (x := .singleLineComment x noLoc) (y := .singleLineComment y noLoc)
      (b := .newline noLoc :: tb') (ns := ns) ⟨_, _, rfl⟩ ⟨_, _, rfl⟩ (by simpa using hp)
    simpa using this

/-- C14: a comment at the end of a line may be removed, with the blanks before it. -/
theorem C14_comment_removed [Target] (file a w c b : Str) (ta : List Token) (hta : scan file a = .ret ta) (hna : NoLexError ta)
    (hw : ∀ x ∈ w, Blank x) (hc : '\n' ∉ c) (bytes : List (Nat × U8))
    (h : Describes wordBinary file (a ++ w ++ ';' :: c ++ '\n' :: b) bytes) :
    Describes wordBinary file (a ++ '\n' :: b) bytes := by
  have hca := cut_of_scan hta hna
  have hnl : ∀ d r, '\n' :: b = d :: r → d = '\n' := by
    intro d r e
    cases e
    rfl
  obtain ⟨ts, hts⟩ := describes_tokens h
  obtain ⟨t0, h0, h0'⟩ := cut_comment (b := []) (tb := []) hca hw hc (by simp) (.done (by simp))
  rw [List.append_nil, List.append_nil] at h0
  obtain ⟨tb, rfl, h1⟩ := cut_split h0 (newline_apart hnl) (by
    rw [show a ++ w ++ ';' :: c ++ '\n' :: b = a ++ (w ++ (';' :: c)) ++ '\n' :: b by simp] at hts
    exact hts)
  refine describes_same hts (cut_append hca h1 (newline_apart hnl)) ?_ h
  intro ns hp
  have hL : Longest wordBinary ['\n'] b .newline := longest_iff.2 ⟨.newline, fun d r _ ⟨k, hk⟩ =>
    absurd (lexeme_newline (t := [d]) hk).1 (by simp)⟩
  obtain ⟨tb', rfl, _⟩ := cut_inv (blanks := []) (by simp) hL h1
  rcases h0' with rfl | ⟨p, x, y, e1, rfl⟩
  · refine program_remove_comment (c := .singleLineComment (';' :: c) noLoc) ⟨_, rfl⟩ ⟨_, _, rfl⟩ ?_
    simpa using hp
  · rw [e1]
    have := program_comment (p := p) (x := .singleLineComment y noLoc) (y := .singleLineComment x noLoc)
      (b := .newline noLoc :: tb') (ns := ns) ⟨_, _, rfl⟩ ⟨_, _, rfl⟩ (by simpa using hp)
    simpa using this

example : scan [] "cls".toList = .ret [.identifier "cls".toList ⟨[], 1, 1, 3⟩] ∧
    NoLexError [.identifier "cls".toList ⟨[], 1, 1, 3⟩] ∧ ¬ OpenDirective [.identifier "cls".toList ⟨[], 1, 1, 3⟩] ∧
    Describes wordBinary [] ("cls".toList ++ '\n' :: []) [(0, 0), (1, 0xE0)] ∧
    Describes wordBinary [] ("cls".toList ++ " ".toList ++ ';' :: "clear".toList ++ '\n' :: []) [(0, 0), (1, 0xE0)] := by
  have h1 : scan [] "cls".toList = .ret [.identifier "cls".toList ⟨[], 1, 1, 3⟩] := by decide +kernel
  have h2 : NoLexError [.identifier "cls".toList ⟨[], 1, 1, 3⟩] := by simp [NoLexError]
  have h3 : ¬ OpenDirective [.identifier "cls".toList ⟨[], 1, 1, 3⟩] := by
    rintro ⟨p, l', s, l, args, xs, e, _⟩
    have : .directiveMarker l' ∈ [Token.identifier "cls".toList ⟨[], 1, 1, 3⟩] := by
      rw [e]
      simp
    simp at this
  have h4 : Describes wordBinary [] ("cls".toList ++ '\n' :: []) [(0, 0), (1, 0xE0)] :=
    (describes_iff _ _ _).2 ⟨[.identifier "cls".toList ⟨[], 1, 1, 3⟩, .newline ⟨[], 1, 4, 1⟩],
      [.instruction ⟨[], 1, 1, 3⟩ "cls".toList []], [⟨0, [0, 0xE0]⟩], by decide +kernel, rfl, rfl, rfl⟩
  exact ⟨h1, h2, h3, h4, C14_comment_added_partial [] _ _ _ _ _ h1 h2 h3 (by decide) (by decide) _ h4⟩

/-- C14: a comment may be added at the end of the file. -/
theorem C14_comment_at_end [Target] (file a w c : Str) (hw : ∀ x ∈ w, Blank x) (hc : '\n' ∉ c) (bytes : List (Nat × U8))
    (h : Describes wordBinary file a bytes) : Describes wordBinary file (a ++ w ++ ';' :: c) bytes := by
  obtain ⟨ts, hts⟩ := describes_tokens h
  obtain ⟨t, h1, h2⟩ := cut_comment (b := []) (tb := []) hts hw hc (by simp) (.done (by simp))
  rw [List.append_nil, List.append_nil, ← List.append_assoc] at h1
  refine describes_same hts h1 ?_ h
  intro ns hp
  rcases h2 with rfl | ⟨p, x, y, rfl, rfl⟩
  · have := program_append hp (.blank (t := .singleLineComment (';' :: c) noLoc) (.inr ⟨_, _, rfl⟩) .empty)
    simpa using this
  · exact program_comment ⟨_, _, rfl⟩ ⟨_, _, rfl⟩ hp

example (bytes : List (Nat × U8)) (h : Describes wordBinary [] "cls\n".toList bytes) :
    Describes wordBinary [] "cls\n ; end".toList bytes :=
  C14_comment_at_end [] "cls\n".toList " ".toList " end".toList (by decide) (by decide) bytes h

/-- C14: the exact limit: after a directive without arguments, or with a trailing comma, no comment is accepted. -/
theorem C14_comment_rejected (a b : List Token) (c : Token) (hc : IsComment c) (ho : OpenDirective a) (ns : List Node) :
    parse (a ++ c :: b) ≠ .ret (.ok ns) := by
  intro h
  obtain ⟨p, l', s, l, args, xs, rfl, hi⟩ := ho
  rw [List.append_assoc] at h
  obtain ⟨_, rfl⟩ := program_open ((parse_ok_iff _ _).1 h) rfl hi (.inr hc)
  obtain ⟨_, _, h⟩ := hc
  cases h

example (l : Loc) (ns : List Node) : parse ([.directiveMarker l, .identifier "db".toList l, .numericLiteral 1 l, .comma l] ++
    [.singleLineComment ";".toList l, .newline l]) ≠ .ret (.ok ns) :=
  C14_comment_rejected _ _ _ ⟨_, _, rfl⟩ ⟨[], l, _, l, [.numericLiteral 1 l, .comma l], [.numeric 1], rfl, .more .numeric .empty⟩ ns

/-- C14: the claim in full is false of the code: a comment added to the line `.db 1,`, which is accepted, is not. -/
theorem C14_text_claim_false : ¬ ∀ (file a w c b : Str) (ta : List Token) (bytes : List (Nat × U8)),
    scan file a = .ret ta → NoLexError ta → (∀ x ∈ w, Blank x) → '\n' ∉ c →
    Describes wordBinary file (a ++ '\n' :: b) bytes →
    Describes wordBinary file (a ++ w ++ ';' :: c ++ '\n' :: b) bytes := by
  intro h
  have hs : scan [] ".db 1,".toList = .ret [.directiveMarker ⟨[], 1, 1, 1⟩, .identifier "db".toList ⟨[], 1, 2, 2⟩,
      .numericLiteral 1 ⟨[], 1, 5, 1⟩, .comma ⟨[], 1, 6, 1⟩] := by decide +kernel
  have hd : Describes wordBinary [] (".db 1,".toList ++ '\n' :: []) [(0, 1)] := by
    rw [describes_iff]
    refine ⟨[.directiveMarker ⟨[], 1, 1, 1⟩, .identifier "db".toList ⟨[], 1, 2, 2⟩,
      .numericLiteral 1 ⟨[], 1, 5, 1⟩, .comma ⟨[], 1, 6, 1⟩, .newline ⟨[], 1, 7, 1⟩],
      [.directive ⟨[], 1, 2, 2⟩ "db".toList [.numeric 1]], [⟨0, [1]⟩], by decide +kernel, rfl, rfl, rfl⟩
  obtain ⟨ts, ns, _, h1, h2, _⟩ := (describes_iff _ _ _).1 (h [] ".db 1,".toList [] [] [] _ _ hs (by simp [NoLexError]) (by simp) (by simp) hd)
  have h3 : scan [] (".db 1,".toList ++ [] ++ ';' :: [] ++ '\n' :: []) = .ret ([.directiveMarker ⟨[], 1, 1, 1⟩,
      .identifier "db".toList ⟨[], 1, 2, 2⟩, .numericLiteral 1 ⟨[], 1, 5, 1⟩, .comma ⟨[], 1, 6, 1⟩] ++
      .singleLineComment ";".toList ⟨[], 1, 7, 1⟩ :: [.newline ⟨[], 1, 8, 1⟩]) := by decide +kernel
  cases h3.symm.trans h1
  exact C14_comment_rejected _ _ _ ⟨_, _, rfl⟩ ⟨[], _, _, _, _, _, rfl, .more .numeric .empty⟩ ns h2

/-! ### File names and locations -/

/-- C55: under another file name, a text has the same tokens with the other name in their locations. -/
theorem C55_file_name [Target] (file file' text : Str) (tokens : List Token) (h : scan file text = .ret tokens) :
    scan file' text = .ret (tokens.map (mapLoc fun l => { l with fileName := file' })) := by
  rw [scan_iff_lex] at h ⊢
  exact lex_rename h file'

example : scan "b".toList "a".toList = .ret [.identifier "a".toList ⟨"b".toList, 1, 1, 1⟩] :=
  C55_file_name "a".toList "b".toList "a".toList [.identifier "a".toList ⟨"a".toList, 1, 1, 1⟩] (by decide +kernel)

/-- C55: tokens with other locations are parsed to the same statements, or rejected for the same reason, with these
locations. -/
theorem C55_parse (f : Loc → Loc) (tokens : List Token) (out : Except ParseError (List Node))
    (h : parse tokens = .ret out) : parse (tokens.map (mapLoc f)) = .ret (parsedMap f out) :=
  parse_map f h

example (f : Loc → Loc) (l : Loc) : parse [.identifier "a".toList (f l), .labelMarker (f l)] =
    .ret (.ok [.label (f l) "a".toList]) :=
  C55_parse f [.identifier "a".toList l, .labelMarker l] (.ok [.label l "a".toList]) rfl

/-- C55: statements with other locations assemble to the same data, or are rejected for the same reason, with these
locations. -/
theorem C55_assemble (f : Loc → Loc) (nodes : List Node) (out : Except SemanticError (List DataRange))
    (h : assemble nodes = .ret out) : assemble (nodes.map (nodeMap f)) = .ret (assembledMap f out) :=
  assemble_map f h

example (f : Loc → Loc) (l : Loc) : assemble [.label (f l) "a".toList, .label (f l) "a".toList] =
    .ret (.error (.redefinitionOfLabel (f l) "a".toList)) :=
  C55_assemble f [.label l "a".toList, .label l "a".toList] (.error (.redefinitionOfLabel l "a".toList)) rfl

/-- C55: what a text describes does not depend on the name of its file. -/
theorem C55_describes [Target] (file file' text : Str) (bytes : List (Nat × U8)) :
    Describes wordBinary file text bytes ↔ Describes wordBinary file' text bytes := by
  rw [describes_cut, describes_cut]

example : scan "a.s".toList "cls\n".toList = .ret [.identifier "cls".toList ⟨"a.s".toList, 1, 1, 3⟩, .newline ⟨"a.s".toList, 1, 4, 1⟩] ∧
    scan "b.s".toList "  cls\n".toList = .ret [.identifier "cls".toList ⟨"b.s".toList, 1, 3, 3⟩, .newline ⟨"b.s".toList, 1, 6, 1⟩] ∧
    [Token.identifier "cls".toList ⟨"a.s".toList, 1, 1, 3⟩, .newline ⟨"a.s".toList, 1, 4, 1⟩].map bare =
      [Token.identifier "cls".toList ⟨"b.s".toList, 1, 3, 3⟩, .newline ⟨"b.s".toList, 1, 6, 1⟩].map bare :=
  ⟨by decide +kernel, by decide +kernel, rfl⟩

/-- The tool printed one message and failed. -/
def OneMessage (o : Outcome) : Prop := ∃ m, o = ⟨[.printed m], .code 1⟩

/-- C55: two texts with the same tokens but for their locations, in files of any names, have exactly the same effects,
except that both may be rejected with one message each. -/
theorem C55_run [Target] (env : Env) (program input input' output text text' : Str) (ts ts' : List Token)
    (h : scan input text = .ret ts) (h' : scan input' text' = .ret ts') (he : ts.map bare = ts'.map bare) :
    assembleText env program input output text = assembleText env program input' output text' ∨
      (OneMessage (assembleText env program input output text) ∧
        OneMessage (assembleText env program input' output text')) := by
  obtain ⟨out, hp⟩ := C10_total ts
  obtain ⟨out', hp'⟩ := C10_total ts'
  have h1 := parse_map nowhere hp
  have h2 := parse_map nowhere hp'
  rw [show ts.map (mapLoc nowhere) = ts'.map (mapLoc nowhere) from he, h2] at h1
  unfold assembleText
  simp only [h, h', hp, hp']
  cases out with
  | error e =>
    cases out' with
    | ok ns => cases h1
    | error e' =>
      obtain ⟨m, hm⟩ := C49_parse_error_display ts e hp
      obtain ⟨m', hm'⟩ := C49_parse_error_display ts' e' hp'
      simp only [hm, hm']
      exact .inr ⟨⟨_, rfl⟩, ⟨_, rfl⟩⟩
  | ok ns =>
    cases out' with
    | error e' => cases h1
    | ok ns' =>
      simp only [parsedMap, Run.ret.injEq, Except.ok.injEq] at h1
      have h3 := assemble_run nowhere ns
      have h4 := assemble_run nowhere ns'
      rw [h1, h3] at h4
      cases ha : assemble ns with
      | panic =>
        rw [ha] at h4
        cases ha' : assemble ns' with
        | ret out =>
          rw [ha'] at h4
          cases h4
        | panic =>
          simp only [ha, ha']
          exact .inl trivial
      | ret out =>
        rw [ha] at h4
        cases ha' : assemble ns' with
        | panic =>
          rw [ha'] at h4
          cases h4
        | ret out' =>
          rw [ha'] at h4
          simp only [runMap, Run.ret.injEq] at h4
          cases out with
          | error e =>
            cases out' with
            | ok r => cases h4
            | error e' =>
              simp only [ha, ha']
              exact .inr ⟨⟨_, rfl⟩, ⟨_, rfl⟩⟩
          | ok r =>
            cases out' with
            | error e' => cases h4
            | ok r' =>
              cases h4
              simp only [ha, ha']
              exact .inl trivial

example (env : Env) (program output : Str) :
    assembleText env program "a.s".toList output "cls\n".toList =
        assembleText env program "b.s".toList output "  cls\n".toList ∨
      (OneMessage (assembleText env program "a.s".toList output "cls\n".toList) ∧
        OneMessage (assembleText env program "b.s".toList output "  cls\n".toList)) :=
  C55_run env program "a.s".toList "b.s".toList output _ _
    [.identifier "cls".toList ⟨"a.s".toList, 1, 1, 3⟩, .newline ⟨"a.s".toList, 1, 4, 1⟩]
    [.identifier "cls".toList ⟨"b.s".toList, 1, 3, 3⟩, .newline ⟨"b.s".toList, 1, 6, 1⟩]
    (by decide +kernel) (by decide +kernel) rfl

end C8S
