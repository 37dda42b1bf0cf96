import Verif.Proofs.Printed

/- C103: what a message can contain. -/

namespace C8S

open Spec

namespace PrintedExample

/-- A machine without files. -/
def files : Env := ⟨fun _ => .error [], fun _ => .error [], fun _ => .error [], fun _ _ => .error ([], 0)⟩

end PrintedExample

open PrintedExample

/-- C103: a program that is not valid is reported on one line, of printable characters and those of the file name. -/
theorem C103_semantic [Target] (env : Env) (program input output text : Str) (tokens : List Token) (nodes : List Node)
    (hs : scan input text = .ret tokens) (hp : parse tokens = .ret (.ok nodes)) (hv : ∀ labels, ¬ Valid nodes labels) :
    ∃ line, assembleText env program input output text = ⟨[.printed (line ++ "\n".toList)], .code 1⟩ ∧ PlainBut input line := by
  obtain ⟨loc, message, hc, e⟩ := C81_semantic env program input output text tokens nodes hs hp hv
  have hprog := (parse_ok_iff _ _).1 hp
  obtain ⟨hl, hm⟩ := complaint_plain (program_formed hprog (lexed_tokens ((scan_iff_lex _ _ _).1 hs))) (node_file hs hprog) hc
  refine ⟨shownLoc loc ++ ": error: ".toList ++ message, ?_, ((shownLoc_plain hl).append (.of (by decide))).append hm⟩
  rw [e]
  simp only [say_cons, say_nil, List.append_assoc, List.append_nil]

example : assembleText files "c8s".toList "f".toList "-".toList "jp a\n".toList =
    ⟨[.printed "f:1:1-2: error: Unable to resolve label a.\n".toList], .code 1⟩ := by decide +kernel

/-- C103: a token that cannot come where it is is reported on one line, of printable characters, those of the file name,
and those of the token if it is a string literal. -/
theorem C103_token [Target] (env : Env) (program input output text : Str) (pre post : List Token) (t : Token)
    (hs : scan input text = .ret (pre ++ t :: post)) (h1 : Completable pre) (h2 : ¬ Completable (pre ++ [t]))
    (ht : ∀ e l, t ≠ .error e l) :
    ∃ before after, assembleText env program input output text =
        ⟨[.printed (before ++ (verbatim t ++ (after ++ "\n".toList)))], .code 1⟩ ∧ PlainBut input before ∧ PlainBut input after := by
  obtain ⟨a, b, hd, ha, hb⟩ := token_parts (x := input) hs (t := t) (by simp)
  have hf := token_file hs t (by simp)
  obtain ⟨names, hn, ⟨pre', t', post', hq, hc, hb', h⟩ | ⟨hc, _⟩⟩ := syntax_parts env program input output text _ hs (by
    rintro ⟨ns, hp⟩
    exact h2 ⟨post, ns, by simpa using hp⟩)
  · obtain rfl := first_bad_unique hq h1 h2 hc hb'
    obtain ⟨rfl, rfl⟩ := List.cons.inj (List.append_cancel_left hq)
    rcases h with ⟨_, e⟩ | ⟨⟨e, l, rfl⟩, _⟩
    · rw [e, hd]
      refine ⟨shownLoc t.location ++ ": error: Unexpected token found: ".toList ++ a,
        b ++ ", expecting ".toList ++ expecting names ++ ".".toList, ?_,
        ((shownLoc_plain hf).append (.of (by decide))).append ha,
        ((hb.append (.of (by decide))).append (expecting_plain hn)).append (.of (by decide))⟩
      rw [show ".\n".toList = ".".toList ++ "\n".toList from rfl]
      simp only [say_cons, say_nil, List.append_assoc, List.append_nil]
    · exact absurd rfl (ht e l)
  · rw [show pre ++ t :: post = (pre ++ [t]) ++ post by simp] at hc
    exact absurd (completable_of_append hc) h2

/-- A string literal is shown as it is, with its ends of lines: this message has two lines. -/
example : assembleText files "c8s".toList "f".toList "-".toList "\"a\nf:9:9: error: b\"\n".toList =
    ⟨[.printed ("f:1:1-3: error: Unexpected token found: string literal (\"a\nf:9:9: error: b\"), expecting one of: " ++
      "directive marker, identifier.\n").toList], .code 1⟩ := by decide +kernel

/-- C103: a piece of text that is in error is reported on two lines, of printable characters, those of the file name, and
the character in error if it can be in no token. -/
theorem C103_lexical [Target] (env : Env) (program input output text : Str) (pre : List Token) (e : ScanError) (l : Loc)
    (hs : scan input text = .ret (pre ++ [.error e l])) (h1 : Completable pre) :
    ∃ before after last, assembleText env program input output text =
        ⟨[.printed (before ++ (verbatim (.error e l) ++ (after ++ ("\n".toList ++ (last ++ "\n".toList)))))], .code 1⟩ ∧
      PlainBut input before ∧ PlainBut input after ∧ PlainBut input last ∧ (verbatim (.error e l)).length ≤ 1 := by
  obtain ⟨a, b, hd, ha, hb⟩ := token_parts (x := input) hs (t := .error e l) (by simp)
  have hf := token_file hs (.error e l) (by simp)
  have h2 : ¬ Completable (pre ++ [.error e l]) := by
    rintro ⟨ext, ns, hp⟩
    exact program_no_error hp e l (by simp)
  have hv : (verbatim (.error e l)).length ≤ 1 := by cases e <;> simp [verbatim]
  obtain ⟨names, hn, ⟨pre', t', post', hq, hc, hb', h⟩ | ⟨hc, _⟩⟩ := syntax_parts env program input output text _ hs (by
    rintro ⟨ns, hp⟩
    exact h2 ⟨[], ns, by simpa using hp⟩)
  · obtain rfl := first_bad_unique hq h1 h2 hc hb'
    obtain ⟨rfl, rfl⟩ := List.cons.inj (List.append_cancel_left hq)
    rcases h with ⟨h, _⟩ | ⟨_, _, e'⟩
    · exact absurd rfl (h e l)
    · rw [e', hd]
      refine ⟨shownLoc (Token.error e l).location ++ ": error: Encountered syntax error: ".toList ++ a, b,
        shownLoc (Token.error e l).location ++ ": error: Expecting ".toList ++ expecting names ++ ".".toList, ?_,
        ((shownLoc_plain hf).append (.of (by decide))).append ha, hb,
        (((shownLoc_plain hf).append (.of (by decide))).append (expecting_plain hn)).append (.of (by decide)), hv⟩
      rw [show ".\n".toList = ".".toList ++ "\n".toList from rfl]
      simp only [say_cons, say_nil, List.append_assoc, List.append_nil]
  · exact absurd hc h2

/-- A character that can be in no token is shown as it is, be it a control character. -/
example : assembleText files "c8s".toList "f".toList "-".toList "cls\n\x1b[2J\n".toList =
    ⟨[.printed ("f:2:1: error: Encountered syntax error: Invalid character '\x1b'.\n" ++
      "f:2:1: error: Expecting one of: directive marker, identifier.\n").toList], .code 1⟩ := by decide +kernel

/-- C103: that the file ends too early is reported on one line of printable characters. -/
theorem C103_end [Target] (env : Env) (program input output text : Str) (tokens : List Token)
    (hs : scan input text = .ret tokens) (h1 : Completable tokens) (h2 : ¬ ∃ ns, Program tokens ns) :
    ∃ line, assembleText env program input output text = ⟨[.printed (line ++ "\n".toList)], .code 1⟩ ∧ PlainBut [] line := by
  obtain ⟨names, hn, ⟨pre, t, post, rfl, _, hb, _⟩ | ⟨_, e⟩⟩ := syntax_parts env program input output text _ hs h2
  · rw [show pre ++ t :: post = (pre ++ [t]) ++ post by simp] at h1
    exact absurd (completable_of_append h1) hb
  · refine ⟨"error: Unexpected end-of-file reached, expecting ".toList ++ expecting names ++ ".".toList, ?_,
      ((PlainBut.of (by decide)).append (expecting_plain hn)).append (.of (by decide))⟩
    rw [e, show ".\n".toList = ".".toList ++ "\n".toList from rfl]
    simp only [say_cons, say_nil, List.append_assoc, List.append_nil]

example : assembleText files "c8s".toList "\x1b".toList "-".toList ".db 1,".toList =
    ⟨[.printed "error: Unexpected end-of-file reached, expecting one of: numeric literal, string literal.\n".toList],
      .code 1⟩ := by decide +kernel

/-- C103: overlapping ranges are reported on two lines and two more for every pair, of printable characters and those of
the program name. -/
theorem C103_overlap [Target] (env : Env) (program input output text : Str) (tokens : List Token) (nodes : List Node)
    (ranges : List DataRange) (hs : scan input text = .ret tokens) (hp : parse tokens = .ret (.ok nodes))
    (ha : assemble nodes = .ret (.ok ranges)) (ho : findOverlappingRanges ranges ≠ []) :
    ∃ lines : List Str, assembleText env program input output text =
        ⟨lines.map fun line => .printed (line ++ "\n".toList), .code 1⟩ ∧
      lines.length = 2 + 2 * (findOverlappingRanges ranges).length ∧ ∀ line ∈ lines, PlainBut program line := by
  let say1 : Str → Str := fun m => program ++ (": error: ".toList ++ m)
  refine ⟨say1 "Input file specifies overlapping data ranges.".toList ::
    say1 "Data from one section has overflowed into the adjacent.".toList ::
    (findOverlappingRanges ranges).flatMap fun p => [say1 ("  range ".toList ++ shownRange p.1 ++ " overlaps with:".toList),
      say1 ("  range ".toList ++ shownRange p.2)], ?_, ?_, ?_⟩
  · rw [C76_overlap env program input output text tokens nodes ranges hs hp ha ho]
    simp only [List.map_cons, List.map_flatMap, List.map_nil, report, say1, List.append_assoc]
  · have two : ∀ (l : List (DataRange × DataRange)) (f g : DataRange × DataRange → Str),
        (l.flatMap fun p => [f p, g p]).length = 2 * l.length := by
      intro l f g
      induction l with
      | nil => rfl
      | cons p l ih =>
        simp only [List.flatMap_cons, List.length_append, List.length_cons, List.length_nil] at ih ⊢
        omega
    rw [List.length_cons, List.length_cons, two]
    omega
  · have h1 : ∀ m, PlainBut program m → PlainBut program (say1 m) := fun m hm =>
      (PlainBut.self program).append ((PlainBut.of (by decide)).append hm)
    intro line hl
    rcases List.mem_cons.1 hl with rfl | hl
    · exact h1 _ (.of (by decide))
    rcases List.mem_cons.1 hl with rfl | hl
    · exact h1 _ (.of (by decide))
    obtain ⟨p, _, hl⟩ := List.mem_flatMap.1 hl
    rcases List.mem_cons.1 hl with rfl | hl
    · exact h1 _ (((PlainBut.of (by decide)).append (shownRange_plain p.1)).append (.of (by decide)))
    · cases List.mem_singleton.1 hl
      exact h1 _ ((PlainBut.of (by decide)).append (shownRange_plain p.2))

example : assembleText files "c8s".toList "f".toList "-".toList ".org 0\n.db 1\n.org 0\n.db 2\n".toList =
    ⟨["c8s: error: Input file specifies overlapping data ranges.", "c8s: error: Data from one section has overflowed into the adjacent.",
      "c8s: error:   range $000...$000 (1 bytes) overlaps with:", "c8s: error:   range $000...$000 (1 bytes)"].map
        fun line => .printed (line.toList ++ "\n".toList), .code 1⟩ := by decide +kernel

/-- C103: if the text does not describe an image, every character printed is printable, an end of line, in one of the
names given to the tool, in a string literal, or the character that can be in no token. -/
theorem C103_all [Target] (env : Env) (program input output text : Str) (tokens : List Token)
    (hs : scan input text = .ret tokens) (hd : ¬ ∃ bytes, Describes wordBinary input text bytes ∧ NoCollision bytes) :
    ∀ c ∈ printedBy (assembleText env program input output text).events,
      Printable c ∨ c = '\n' ∨ c ∈ program ∨ c ∈ input ∨ ∃ t ∈ tokens, c ∈ verbatim t := by
  intro c hc
  have wrap : ∀ {s : Str}, c ∈ printedBy [.printed s] → c ∈ s := by
    intro s h
    simpa [printedBy] using h
  have nl : c ∈ "\n".toList → c = '\n' := fun h => List.mem_singleton.1 h
  have byInput : ∀ {s : Str}, PlainBut input s → c ∈ s → Printable c ∨ c = '\n' ∨ c ∈ program ∨ c ∈ input ∨
      ∃ t ∈ tokens, c ∈ verbatim t := by
    intro s h hc
    rcases h c hc with h | h
    · exact .inl h
    · exact .inr (.inr (.inr (.inl h)))
  by_cases hp : ∃ ns, Program tokens ns
  · obtain ⟨nodes, hp⟩ := hp
    have hp' := (parse_ok_iff _ _).2 hp
    by_cases hv : ∃ labels, Valid nodes labels
    · obtain ⟨ranges, ha⟩ := (C34_valid nodes).2 hv
      have ho : findOverlappingRanges ranges ≠ [] := by
        intro ho
        exact hd ⟨_, (describes_iff _ _ _).2 ⟨tokens, nodes, ranges, hs, hp', ha, rfl⟩, (C41_overlap _ _ ha).1 ho⟩
      obtain ⟨lines, e, _, hl⟩ := C103_overlap env program input output text tokens nodes ranges hs hp' ha ho
      rw [e] at hc
      obtain ⟨ev, hev, hc⟩ := List.mem_flatMap.1 hc
      obtain ⟨line, hm, rfl⟩ := List.mem_map.1 hev
      rcases List.mem_append.1 hc with hc | hc
      · rcases hl line hm c hc with h | h
        · exact .inl h
        · exact .inr (.inr (.inl h))
      · exact .inr (.inl (nl hc))
    · obtain ⟨line, e, hl⟩ := C103_semantic env program input output text tokens nodes hs hp' (fun l h => hv ⟨l, h⟩)
      rw [e] at hc
      rcases List.mem_append.1 (wrap hc) with hc | hc
      · exact byInput hl hc
      · exact .inr (.inl (nl hc))
  · obtain ⟨_, _, ⟨pre, t, post, rfl, h1, h2, _⟩ | ⟨h1, _⟩⟩ := syntax_parts env program input output text _ hs hp
    · by_cases ht : ∃ e l, t = .error e l
      · obtain ⟨e, l, rfl⟩ := ht
        obtain rfl := C08_error_last input text _ pre post e l hs rfl
        obtain ⟨a, b, d, e', ha, hb, hd', _⟩ := C103_lexical env program input output text pre e l hs h1
        rw [e'] at hc
        have hc := wrap hc
        simp only [List.mem_append] at hc
        rcases hc with hc | hc | hc | hc | hc | hc
        · exact byInput ha hc
        · exact .inr (.inr (.inr (.inr ⟨_, by simp, hc⟩)))
        · exact byInput hb hc
        · exact .inr (.inl (nl hc))
        · exact byInput hd' hc
        · exact .inr (.inl (nl hc))
      · obtain ⟨a, b, e', ha, hb⟩ := C103_token env program input output text pre post t hs h1 h2 (fun e l h => ht ⟨e, l, h⟩)
        rw [e'] at hc
        have hc := wrap hc
        simp only [List.mem_append] at hc
        rcases hc with hc | hc | hc | hc
        · exact byInput ha hc
        · exact .inr (.inr (.inr (.inr ⟨t, by simp, hc⟩)))
        · exact byInput hb hc
        · exact .inr (.inl (nl hc))
    · obtain ⟨line, e, hl⟩ := C103_end env program input output text tokens hs h1 hp
      rw [e] at hc
      rcases List.mem_append.1 (wrap hc) with hc | hc
      · rcases hl c hc with h | h
        · exact .inl h
        · cases h
      · exact .inr (.inl (nl hc))

example : '\x1b' ∈ printedBy (assembleText files "c8s".toList "f".toList "-".toList "cls\n\x1b[2J\n".toList).events := by
  decide +kernel

end C8S
