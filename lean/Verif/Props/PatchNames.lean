import Verif.Proofs.PatchNames

/- Property C134: a repair of the names of the timers. -/

namespace C8S

open Spec Parser

/-- C134: with the classification of the code, the parser is that of the code. -/
theorem C134_code (tokens : List Token) : parseWith fieldOfIdentifier tokens = parse tokens := by
  have h : Replaces fieldOfIdentifier id := ⟨fun _ => rfl, fun n => by cases fieldOfIdentifier n <;> rfl⟩
  rw [parseWith_eq h]
  have e : replaceOperands id = id := by
    funext n
    cases n <;> simp [replaceOperands]
  cases parse tokens with
  | panic => rfl
  | ret r => cases r <;> simp [replaceValue, e]

example (l : Loc) : parseWith fieldOfIdentifier [.identifier "cls".toList l, .newline l] =
    .ret (.ok [.instruction l "cls".toList []]) := rfl

/-- C134: with the names of the timers compared in either case, the parser yields what that of the code yields, with the four
mixed spellings of the timers, where they are operands, replaced by the timers; errors are the same. -/
theorem C134_changes (tokens : List Token) :
    parseWith fieldOfAnyCase tokens = replaceValue (List.map (replaceOperands meant)) (parse tokens) :=
  parseWith_eq anyCase_replaces tokens

example (l : Loc) : parseWith fieldOfAnyCase [.identifier "ld".toList l, .identifier "Dt".toList l, .comma l,
      .identifier "v1".toList l, .newline l] =
    .ret (.ok [.instruction l "ld".toList [.delayTimer, .generalPurposeRegister 1]]) := rfl

/-- C134: with it, the claim of C16 holds: re-casing the name of a register names the same register. -/
theorem C134_repaired (m name name' : Str) (l1 l2 l3 : Loc) (f : Field) (hs : SameLetters name name')
    (hf : RegisterNamed name f) :
    parseWith fieldOfAnyCase [.identifier m l1, .identifier name' l2, .newline l3] = .ret (.ok [.instruction l1 m [f]]) := by
  rw [C134_changes]
  rcases C16_case_partial m name name' l1 l2 l3 f hs hf with h | ⟨hm, h⟩
  · have e : meant f = f := by
      cases f with
      | identifier n =>
        cases hf with
        | special hx => exact absurd hx (by simp [specialNames])
      | _ => rfl
    rw [h]
    simp [replaceValue, replaceOperands, e]
  · have e : meant (.identifier name') = f := by
      cases hf with
      | special hx =>
        have key : ∀ n ∈ ["Dt".toList, "dT".toList, "St".toList, "sT".toList], ∀ p ∈ specialNames, SameLetters p.1 n →
            meant (.identifier n) = p.2 := by decide
        exact key _ hm _ hx hs
      | @general v c r hv hd =>
        exfalso
        simp only [List.mem_cons, List.not_mem_nil, or_false] at hm
        rcases hm with rfl | rfl | rfl | rfl <;> cases hs with
        | cons h1 _ => rcases hv with rfl | rfl <;> exact absurd h1 (by decide)
    rw [h]
    simp [replaceValue, replaceOperands, e]

example (l : Loc) : parseWith fieldOfAnyCase [.identifier "ld".toList l, .identifier "sT".toList l, .newline l] =
    .ret (.ok [.instruction l "ld".toList [.soundTimer]]) :=
  C134_repaired _ "ST".toList _ l l l .soundTimer (by decide) (.special (by decide))

/-- C134: and a name that is not that of a register in any case is a label still. -/
theorem C134_labels (m name : Str) (l1 l2 l3 : Loc) (h : ∀ name' f, SameLetters name' name → ¬ RegisterNamed name' f) :
    parseWith fieldOfAnyCase [.identifier m l1, .identifier name l2, .newline l3] =
      .ret (.ok [.instruction l1 m [.identifier name]]) := by
  have hself : SameLetters name name := by
    clear h
    induction name with
    | nil => exact .nil
    | cons c s ih => exact .cons (.inl rfl) ih
  have hl : OperandOf name (.identifier name) := .label fun f => h name f hself
  have n1 : ¬ (name = "Dt".toList ∨ name = "dT".toList) := by
    rintro (rfl | rfl) <;> exact h "dt".toList .delayTimer (by decide) (.special (by decide))
  have n2 : ¬ (name = "St".toList ∨ name = "sT".toList) := by
    rintro (rfl | rfl) <;> exact h "st".toList .soundTimer (by decide) (.special (by decide))
  rw [C134_changes, (C17_operand_iff m name l1 l2 l3 _).2 hl]
  simp only [replaceValue, replaceOperands, List.map_cons, List.map_nil, meant, if_neg n1, if_neg n2]

example : ∀ name' f, SameLetters name' "dtx".toList → ¬ RegisterNamed name' f := by
  intro name' f hs hr
  cases hr with
  | special hx =>
    have key : ∀ p ∈ specialNames, ¬ SameLetters p.1 "dtx".toList := by decide
    exact key _ hx hs
  | general hv hd =>
    cases hs with
    | cons _ hs => cases hs with
      | cons _ hs => cases hs

end C8S
