import Verif.Proofs.Stack
import Verif.Props.Image
import Verif.Props.Directive

/- Property C80: how deep the calls of the parser nest. -/

namespace C8S

open Spec Parser Image

/-- C80: with little room for nested calls, the parser either does not get to its end, or answers as it always does. -/
theorem C80_same (room : Nat) (tokens : List Token) : parseOn room tokens = .panic ∨ parseOn room tokens = parse tokens :=
  listOn_same room _ _ _

example : parseOn 2 [.directiveMarker noLoc, .identifier "db".toList noLoc, .numericLiteral 1 noLoc, .comma noLoc,
      .numericLiteral 2 noLoc, .comma noLoc, .newline noLoc] = .panic ∧
    parse [.directiveMarker noLoc, .identifier "db".toList noLoc, .numericLiteral 1 noLoc, .comma noLoc,
      .numericLiteral 2 noLoc, .comma noLoc, .newline noLoc] =
      .ret (.ok [.directive noLoc "db".toList [.numeric 1, .numeric 2]]) := ⟨rfl, rfl⟩

/-- C80: whether the program is accepted or not, room for one call more than there are commas on any line is enough,
however many lines there are. -/
theorem C80_commas (room : Nat) (tokens : List Token) (h : CommasBelow room tokens) : parseOn room tokens = parse tokens :=
  listOn_all room _ _ _ h

/-- Two lines with one comma each, the second of them with an error. -/
example : CommasBelow 2 [.directiveMarker noLoc, .identifier "db".toList noLoc, .numericLiteral 1 noLoc, .comma noLoc,
      .numericLiteral 2 noLoc, .newline noLoc, .identifier "ld".toList noLoc, .identifier "v1".toList noLoc, .comma noLoc,
      .labelMarker noLoc] ∧
    parseOn 2 [.directiveMarker noLoc, .identifier "db".toList noLoc, .numericLiteral 1 noLoc, .comma noLoc,
      .numericLiteral 2 noLoc, .newline noLoc, .identifier "ld".toList noLoc, .identifier "v1".toList noLoc, .comma noLoc,
      .labelMarker noLoc] = .ret (.error (.unexpectedToken [DisplayNames.instructionField] (.labelMarker noLoc))) ∧
    parseOn 1 [.directiveMarker noLoc, .identifier "db".toList noLoc, .numericLiteral 1 noLoc, .comma noLoc,
      .numericLiteral 2 noLoc, .newline noLoc] = .panic := by
  refine ⟨?_, rfl, rfl⟩
  exact commasBelow_line (a := [.directiveMarker noLoc, .identifier "db".toList noLoc, .numericLiteral 1 noLoc,
    .comma noLoc, .numericLiteral 2 noLoc]) (by decide) (commasBelow_all (by decide))

/-- C80: room for one call for each token, and one more, is enough. -/
theorem C80_tokens (room : Nat) (tokens : List Token) (h : tokens.length < room) : parseOn room tokens = parse tokens :=
  C80_commas room tokens (commasBelow_all (Nat.lt_of_le_of_lt (List.length_filter_le _ _) h))

example : parseOn 4 [.directiveMarker noLoc, .identifier "db".toList noLoc, .numericLiteral 1 noLoc] =
    .ret (.ok [.directive noLoc "db".toList [.numeric 1]]) := (C80_tokens 4 _ (by decide)).trans rfl

/-- C80: for an accepted program, room for one call more than there are elements in each list is enough, however many
statements there are. -/
theorem C80_enough (room : Nat) (tokens : List Token) (nodes : List Node) (h : parse tokens = .ret (.ok nodes))
    (hn : ∀ n ∈ nodes, listLength n < room) : parseOn room tokens = .ret (.ok nodes) :=
  listOn_enough room _ _ [] nodes h hn

example : ∃ tokens nodes, scan [] "ld v0, 1\n.db 1, 2\n".toList = .ret tokens ∧ parse tokens = .ret (.ok nodes) ∧
    (∀ n ∈ nodes, listLength n < 3) ∧ (∃ n ∈ nodes, 1 < listLength n) :=
  ⟨_, _, rfl, rfl, by decide, by decide⟩

/-- C80: and room for one call for each element is needed. -/
theorem C80_needed (room : Nat) (tokens : List Token) (nodes : List Node) (h : parse tokens = .ret (.ok nodes))
    (hn : ∃ n ∈ nodes, room < listLength n) : parseOn room tokens = .panic := by
  rcases C80_same room tokens with e | e
  · exact e
  · obtain ⟨n, hm, hl⟩ := hn
    have := listOn_room room _ _ _ _ (e.trans h) (by simp) n hm
    omega

example : parseOn 1 [.directiveMarker noLoc, .identifier "db".toList noLoc, .numericLiteral 1 noLoc, .comma noLoc,
    .numericLiteral 2 noLoc] = .panic :=
  C80_needed 1 _ [.directive noLoc "db".toList [.numeric 1, .numeric 2]] rfl (by decide)

/-- The program with a list of this length and one byte. -/
def emptyStrings (k : Nat) : Node := .directive noLoc "db".toList (List.replicate k (.string []) ++ [.numeric 1])

theorem emptyStrings_formed (k : Nat) : Formed (emptyStrings k) := by
  refine ⟨.inl ⟨_, _, rfl, by decide, by decide⟩, ?_⟩
  intro x hx
  rcases List.mem_append.1 hx with hx | hx
  · rw [(List.mem_replicate.1 hx).2]
    exact .nil
  · rw [List.mem_singleton.1 hx]
    show 1 ≤ 4095
    omega

theorem emptyStrings_means (k : Nat) :
    Directive.fromIdentifierAndParameters "db".toList (List.replicate k (.string []) ++ [.numeric 1]) = .ok (.db [1]) := by
  refine (C18_accepted_iff _ _ _).2 (.db (.refl _) (by simp) ?_)
  induction k with
  | zero => exact .number (b := 1) .nil
  | succ k ih => exact .string (s := []) ih

theorem emptyStrings_assemble (k : Nat) : assemble [emptyStrings k] = .ret (.ok [⟨0, [1]⟩]) := by
  have hm := emptyStrings_means k
  have hd : defineLabels [emptyStrings k] = .ok [] := by
    unfold defineLabels emptyStrings
    rw [defineLabelsLoop, hm]
    rfl
  rw [assemble, hd]
  simp only [emitDataRanges, emptyStrings, emitLoop, hm]
  rfl

/-- C80: no room is enough for all programs, not even for those with one byte of output. -/
theorem C80_unbounded [Target] (room : Nat) (file : Str) : ∃ text tokens, scan file text = .ret tokens ∧
    Describes wordBinary file text [(0, 1)] ∧ parseOn room tokens = .panic := by
  obtain ⟨tokens, nodes, hs, hp, e⟩ := C13_round_trip file [emptyStrings room]
    (fun n hn => by rw [List.mem_singleton.1 hn]; exact emptyStrings_formed room)
  refine ⟨_, tokens, hs, (describes_iff _ _ _).2 ⟨_, _, _, hs, hp, assemble_same e.symm (emptyStrings_assemble room), rfl⟩, ?_⟩
  refine C80_needed room tokens nodes hp ?_
  match nodes, e with
  | [.directive l s xs], e =>
    refine ⟨_, List.mem_cons_self, ?_⟩
    have : xs = List.replicate room (.string []) ++ [.numeric 1] := by
      cases e
      rfl
    simp [listLength, this]
  | [.label l s], e => cases e
  | [.instruction l m fs], e => cases e

/-! ### Examples -/

/-- A comma at the end takes one more call. -/
example : parseOn 2 [.directiveMarker noLoc, .identifier "db".toList noLoc, .numericLiteral 1 noLoc, .comma noLoc,
      .numericLiteral 2 noLoc] ≠ .panic ∧
    parseOn 2 [.directiveMarker noLoc, .identifier "db".toList noLoc, .numericLiteral 1 noLoc, .comma noLoc,
      .numericLiteral 2 noLoc, .comma noLoc, .newline noLoc] = .panic :=
  ⟨(by intro h; cases h), rfl⟩

end C8S
