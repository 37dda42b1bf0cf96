import Verif.Proofs.Alphabet
import Verif.Props.ByLine

/- Property C112: the characters of a source text. -/

namespace C8S

open Spec

/-! ### C112 -/

/-- C112: a character is reported as invalid exactly if no token begins with it, it is not a blank, and the text before it
has no lexical error and does not end in a comment. It is reported after the tokens of that text, where it stands. -/
theorem C112_reported [Target] (file text : Str) (tokens : List Token) (c : Char) (l : Loc) :
    scan file text = .ret (tokens ++ [.error (.invalidCharacter c) l]) ↔
      ∃ before rest, text = before ++ c :: rest ∧ Foreign c ∧ scan file before = .ret tokens ∧ Errorless tokens ∧
        ¬ EndsInComment tokens ∧ l = locate file before [c] := by
  constructor
  · intro h
    obtain ⟨a, rest, e, h1, h2, h3, h4, h5⟩ := lex_invalid ((scan_iff_lex _ _ _).1 h) rfl
    exact ⟨a, rest, e, h4, (scan_iff_lex _ _ _).2 h1, h2, h3, h5⟩
  · rintro ⟨a, rest, rfl, h4, h1, h2, h3, rfl⟩
    exact (scan_iff_lex _ _ _).2 (lex_foreign ((scan_iff_lex _ _ _).1 h1) h2 h3 h4)

/-- The bracket that is closed without having been opened. -/
example : scan [] "ld v0 ], 1".toList = .ret ([.identifier "ld".toList ⟨[], 1, 1, 2⟩, .identifier "v0".toList ⟨[], 1, 4, 2⟩] ++
    [.error (.invalidCharacter ']') ⟨[], 1, 7, 1⟩]) :=
  (C112_reported _ _ _ _ _).2 ⟨"ld v0 ".toList, ", 1".toList, rfl, by decide, rfl, (by rintro e l h; simp at h),
    (by rintro ⟨t, l, h⟩; simp at h), rfl⟩

/-- C112: in a text without lexical errors a character that no token begins with, and that is not a blank, stands in a
comment or in a string, or it closes `[i]`. -/
theorem C112_where [Target] (file before rest : Str) (tokens : List Token) (c : Char)
    (h : scan file (before ++ c :: rest) = .ret tokens) (he : Errorless tokens) (hf : Foreign c) :
    ∃ x u v y t, before = x ++ u ∧ rest = v ++ y ∧ t ∈ tokens ∧ t.location = locate file x (u ++ c :: v) ∧
      (t = .singleLineComment (u ++ c :: v) t.location ∨
       (∃ b, t = .stringLiteral b t.location ∧ u ++ c :: v = '"' :: (b ++ ['"'])) ∨
       (c = ']' ∧ t = .identifier (u ++ c :: v) t.location ∧ (u ++ c :: v = "[i]".toList ∨ u ++ c :: v = "[I]".toList))) :=
  lex_where ((scan_iff_lex _ _ _).1 h) he hf rfl

/-- The letter in a comment. -/
example : ∃ x u v y t, "cls ; d".toList = x ++ u ∧ "j\nret".toList = v ++ y ∧
    t ∈ ([.identifier "cls".toList ⟨[], 1, 1, 3⟩, .singleLineComment "; déj".toList ⟨[], 1, 5, 5⟩, .newline ⟨[], 1, 10, 1⟩,
      .identifier "ret".toList ⟨[], 2, 1, 3⟩] : List Token) ∧ t.location = locate [] x (u ++ 'é' :: v) := by
  obtain ⟨x, u, v, y, t, h1, h2, h3, h4, -⟩ :=
    C112_where [] "cls ; d".toList "j\nret".toList _ 'é' rfl (by rintro e l h; simp at h) (by decide)
  exact ⟨x, u, v, y, t, h1, h2, h3, h4⟩

/-- C112: all letters, digits and signs outside ASCII are such characters, but for the blanks. -/
theorem C112_outside_ascii (c : Char) (h : 128 ≤ c.toNat) (hb : ¬ Blank c) : Foreign c := by
  refine ⟨hb, ?_⟩
  have hle : ∀ {a b : Char}, a ≤ b → a.toNat ≤ b.toNat := fun {a b} hab => UInt32.le_iff_toNat_le.1 (Char.le_def.1 hab)
  rintro (h1 | h1 | h1)
  · rcases h1 with rfl | ⟨_, h1⟩ | ⟨_, h1⟩
    · exact absurd h (by decide)
    · exact absurd (Nat.le_trans h (hle h1)) (by decide)
    · exact absurd (Nat.le_trans h (hle h1)) (by decide)
  · exact absurd (Nat.le_trans h (hle h1.2)) (by decide)
  · simp only [List.mem_cons, List.not_mem_nil, or_false] at h1
    rcases h1 with rfl | rfl | rfl | rfl | rfl | rfl | rfl | rfl | rfl | rfl <;> exact absurd h (by decide)

example : Foreign 'é' ∧ ¬ Foreign (Char.ofNat 0xA0) := ⟨C112_outside_ascii 'é' (by decide) (by decide), by decide⟩

/-- C112: no text with such a character outside comments and strings is accepted. -/
theorem C112_rejected [Target] (file before rest : Str) (tokens : List Token) (c : Char) (hs : scan file before = .ret tokens)
    (he : Errorless tokens) (hc : ¬ EndsInComment tokens) (hf : Foreign c) (p : List Node) :
    ¬ SyntaxOf file (before ++ c :: rest) (.ok p) := by
  rintro ⟨ts, h1, h2⟩
  have h3 := (C112_reported file (before ++ c :: rest) tokens c _).2 ⟨before, rest, rfl, hf, hs, he, hc, rfl⟩
  rw [h1] at h3
  cases h3
  obtain ⟨err, h4⟩ := C12_error _ _ _ (List.mem_append_right tokens List.mem_cons_self)
  rw [h2] at h4
  cases h4

/-- A letter with an accent as an operand. -/
example (p : List Node) : ¬ SyntaxOf [] "jp é".toList (.ok p) :=
  C112_rejected [] "jp ".toList [] _ 'é' rfl (by rintro e l h; simp at h) (by rintro ⟨t, l, h⟩; simp at h) (by decide) p

/-- C112: a file that begins with a byte order mark is not accepted: the mark is reported in line 1, column 1. -/
theorem C112_byte_order_mark [Target] (file rest : Str) :
    SyntaxOf file (Char.ofNat 0xFEFF :: rest) (.error (.unexpectedToken
      ["directive marker".toList, "identifier".toList] (.error (.invalidCharacter (Char.ofNat 0xFEFF)) ⟨file, 1, 1, 1⟩))) := by
  refine ⟨_, (C112_reported file _ [] (Char.ofNat 0xFEFF) _).2 ⟨[], rest, rfl, by decide, (scan_iff_lex _ _ _).2 (.done (by simp)),
    (by intro e l h; cases h), (by rintro ⟨t, l, h⟩; cases h), rfl⟩, ?_⟩
  rfl

end C8S
