import Verif.Proofs.Packed

/- Properties on the white space that a text needs: C114. -/

namespace C8S

open Spec

namespace PackedExample

def parts : List Str := ["ld".toList, "v1".toList, ",".toList, "$0A".toList, "jp".toList, "%1".toList, ".".toList,
  "db".toList, "7".toList, "; end".toList, "\n".toList]

def text : Str := "  ld   v1 ,\t$0A  jp %1 . db 7; end\n ".toList

theorem packed : packedText parts = "ld v1,$0Ajp%1 .db 7; end\n".toList := by decide

theorem made [Target] : MadeOf wordBinary text parts := by
  have put : ∀ (blanks s rest : Str) (k : Loc → Token) (parts : List Str), (∀ c ∈ blanks, Blank c) → Lexeme wordBinary s k →
      ¬ IsError k → (∀ d, rest.head? = some d → ¬ RunsOn s d) → MadeOf wordBinary rest parts →
      MadeOf wordBinary (blanks ++ s ++ rest) (s :: parts) :=
    fun _ _ _ _ _ h1 h2 h3 h4 h5 => .token h1 (longest_runsOn.2 ⟨h2, h4⟩) h3 h5
  have id : ∀ n : Str, ¬ IsError (.identifier n) := fun n ⟨e, h⟩ => by injection congrFun h noLoc
  have num : ∀ n : Nat, ¬ IsError (.numericLiteral n) := fun n ⟨e, h⟩ => by injection congrFun h noLoc
  have hj : ∀ {s r : Str} {d : Char}, r.head? = some d → ¬ RunsOn s d → ∀ d, r.head? = some d → ¬ RunsOn s d := by
    intro s r d h1 h2 d' h3
    rw [h1] at h3
    cases h3
    exact h2
  refine put "  ".toList "ld".toList _ _ _ (by decide) (.name (by decide) (by decide)) (id _) (hj (d := ' ') rfl (by decide)) ?_
  refine put "   ".toList "v1".toList _ _ _ (by decide) (.name (by decide) (by decide)) (id _) (hj (d := ' ') rfl (by decide)) ?_
  refine put " ".toList ",".toList _ _ _ (by decide) .comma (fun ⟨e, h⟩ => by injection congrFun h noLoc) (hj (d := '\t') rfl (by decide)) ?_
  refine put "\t".toList "$0A".toList _ _ _ (by decide) (.hex (s := "0A".toList) (by decide) (by decide) (by decide) (by decide)) (num _)
    (hj (d := ' ') rfl (by decide)) ?_
  refine put "  ".toList "jp".toList _ _ _ (by decide) (.name (by decide) (by decide)) (id _) (hj (d := ' ') rfl (by decide)) ?_
  refine put " ".toList "%1".toList _ _ _ (by decide) (.binary (s := "1".toList) (by decide) (by decide)
    (Nat.le_trans (Nat.mod_le _ _) (by decide))) (num _) (hj (d := ' ') rfl (by decide)) ?_
  refine put " ".toList ".".toList _ _ _ (by decide) .directiveMarker (fun ⟨e, h⟩ => by injection congrFun h noLoc)
    (hj (d := ' ') rfl (by decide)) ?_
  refine put " ".toList "db".toList _ _ _ (by decide) (.name (by decide) (by decide)) (id _) (hj (d := ' ') rfl (by decide)) ?_
  refine put " ".toList "7".toList _ _ _ (by decide) (.decimal (by decide) (by decide) (by decide)) (num _)
    (hj (d := ';') rfl (by decide)) ?_
  refine put "".toList "; end".toList _ _ _ (by decide) (.comment (by decide)) (fun ⟨e, h⟩ => by injection congrFun h noLoc)
    (hj (d := '\n') rfl (by decide)) ?_
  refine put "".toList "\n".toList " ".toList _ _ (by decide) .newline (fun ⟨e, h⟩ => by injection congrFun h noLoc)
    (hj (d := ' ') rfl (by decide)) (.done (by decide))

end PackedExample

open PackedExample

/-- C114: a character after a token is read as part of the token exactly if the token goes on with it. -/
theorem C114_runs_on [Target] (s : Str) (k : Loc → Token) (d : Char) (h : Lexeme wordBinary s k) :
    (∃ k', Lexeme wordBinary (s ++ [d]) k') ↔ RunsOn s d := joins_iff_runsOn h

example : RunsOn "$FF".toList 'a' ∧ ¬ RunsOn "$FFF".toList 'a' ∧ RunsOn "%10".toList '.' ∧ ¬ RunsOn "10".toList '.' := by decide

/-- C114: a text is made of a token and of further tokens exactly if the first is followed by a text that is made of the others
and does not begin with a character with which the first goes on. -/
theorem C114_made [Target] (text s : Str) (parts : List Str) : MadeOf wordBinary text (s :: parts) ↔
    ∃ blanks rest k, text = blanks ++ s ++ rest ∧ (∀ c ∈ blanks, Blank c) ∧ Lexeme wordBinary s k ∧ ¬ IsError k ∧
      (∀ d, rest.head? = some d → ¬ RunsOn s d) ∧ MadeOf wordBinary rest parts := by
  constructor
  · intro h
    obtain ⟨b, r, k, h1, h2, h3, h4, h5⟩ := madeOf_inv h
    obtain ⟨h6, h7⟩ := longest_runsOn.1 h3
    exact ⟨b, r, k, h1, h2, h6, h4, h7, h5⟩
  · rintro ⟨b, r, k, rfl, h2, h3, h4, h5, h6⟩
    exact .token h2 (longest_runsOn.2 ⟨h3, h5⟩) h4 h6

/-- C114: every text without lexical errors is made of tokens, and texts made of the same tokens have the same output. -/
theorem C114_same [Target] (file text : Str) (tokens : List Token) (hs : scan file text = .ret tokens) (hn : NoLexError tokens) :
    ∃ parts, parts.length = tokens.length ∧ MadeOf wordBinary text parts ∧ ∀ text' bytes, MadeOf wordBinary text' parts →
      (Describes wordBinary file text bytes ↔ Describes wordBinary file text' bytes) := by
  obtain ⟨parts, h1, h2⟩ := madeOf_exists (cut_of_scan hs hn)
  exact ⟨parts, by rw [h1, List.length_map], h2, fun text' bytes h => madeOf_describes h2 h bytes⟩

/-- C114: the tokens of a text, with a blank only where one would go on with the next, are the shortest text that is made of
these tokens. It has the same output. -/
theorem C114_packed [Target] (file text : Str) (parts : List Str) (h : MadeOf wordBinary text parts) :
    MadeOf wordBinary (packedText parts) parts ∧
    (∀ text', MadeOf wordBinary text' parts → (packedText parts).length ≤ text'.length) ∧
    ∀ bytes, Describes wordBinary file (packedText parts) bytes ↔ Describes wordBinary file text bytes :=
  ⟨madeOf_packed h, fun _ h' => Nat.le_trans (Nat.le_add_right _ _) (packed_shortest h'),
    fun bytes => madeOf_describes (madeOf_packed h) h bytes⟩

example [Target] : MadeOf wordBinary text parts ∧ packedText parts = "ld v1,$0Ajp%1 .db 7; end\n".toList ∧
    text.length = 36 ∧ (packedText parts).length = 25 := ⟨made, packed, by decide, by rw [packed]; decide⟩

end C8S
