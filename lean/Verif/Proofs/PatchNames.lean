import Verif.Model.PatchNames
import Verif.Spec.PatchNames
import Verif.Props.Operand

/-! Lemmas for C134. -/

namespace C8S

open Spec Parser

/-- What classifies names as the code does and then replaces the operand. -/
def Replaces (classify : Str → Run Field) (g : Field → Field) : Prop :=
  (∀ v, g (.numericLiteral v) = .numericLiteral v) ∧
  ∀ id, classify id = match fieldOfIdentifier id with
    | .panic => .panic
    | .ret f => .ret (g f)

variable {classify : Str → Run Field} {g : Field → Field}

theorem fieldWith_eq (h : Replaces classify g) (p : Parser) :
    parseFieldWith classify p = replaceValue (fun q => (g q.1, q.2)) p.parseField := by
  unfold parseFieldWith parseField
  cases hc : p.current with
  | none => rfl
  | some t =>
    cases t with
    | numericLiteral n l => simp [replaceValue, h.1]
    | identifier id l =>
      simp only [h.2 id]
      cases fieldOfIdentifier id <;> rfl
    | _ => rfl

theorem fieldListWith_eq (h : Replaces classify g) (fuel : Nat) (p : Parser) (list : List Field) :
    parseFieldListWith classify fuel p (list.map g) =
      replaceValue (fun q => (q.1.map g, q.2)) (parseFieldList fuel p list) := by
  induction fuel generalizing p list with
  | zero => rfl
  | succ fuel ih =>
    have key : (match parseFieldWith classify p with
      | .panic => .panic
      | .ret (.error e) => .ret (.error e)
      | .ret (.ok (field, p)) =>
        match p.current with
        | some (.comma _) => parseFieldListWith classify fuel p.consumeToken.2 (list.map g ++ [field])
        | _ => .ret (.ok (list.map g ++ [field], p)) : Run (Except ParseError (List Field × Parser))) =
      replaceValue (fun q => (q.1.map g, q.2)) (match p.parseField with
      | .panic => .panic
      | .ret (.error e) => .ret (.error e)
      | .ret (.ok (field, p)) =>
        match p.current with
        | some (.comma _) => parseFieldList fuel p.consumeToken.2 (list ++ [field])
        | _ => .ret (.ok (list ++ [field], p))) := by
      rw [fieldWith_eq h]
      cases hf : p.parseField with
      | panic => rfl
      | ret r =>
        cases r with
        | error e => rfl
        | ok q =>
          obtain ⟨f, p'⟩ := q
          simp only [replaceValue]
          have ih' := ih p'.consumeToken.2 (list ++ [f])
          rw [List.map_append, List.map_cons, List.map_nil] at ih'
          cases hc : p'.current with
          | none => simp
          | some t =>
            cases t with
            | comma l => exact ih'
            | _ => simp
    rw [parseFieldListWith, parseFieldList]
    cases hc : p.current with
    | none => exact key
    | some t =>
      cases t with
      | newline l => rfl
      | singleLineComment s l => rfl
      | _ => exact key

theorem instructionWith_eq (h : Replaces classify g) (p : Parser) :
    parseInstructionWith classify p = replaceValue (fun q => (replaceOperands g q.1, q.2)) p.parseInstruction := by
  unfold parseInstructionWith parseInstruction
  cases p.parseIdentifier with
  | error e => rfl
  | ok q =>
    obtain ⟨⟨m, l⟩, p'⟩ := q
    have e := fieldListWith_eq h (p'.remaining + 1) p' []
    rw [List.map_nil] at e
    simp only [e]
    cases parseFieldList (p'.remaining + 1) p' [] with
    | panic => rfl
    | ret r =>
      cases r with
      | error e => rfl
      | ok q => rfl

theorem statementWith_eq (h : Replaces classify g) (p : Parser) :
    parseStatementWith classify p = replaceValue (fun q => (replaceOperands g q.1, q.2)) p.parseStatement := by
  have hd : replaceValue (fun q => (replaceOperands g q.1, q.2)) p.parseDirective = p.parseDirective := by
    unfold parseDirective
    cases hc : p.consumeToken with
    | mk t p' =>
    cases t with
    | none => rfl
    | some t =>
      cases t with
      | directiveMarker l =>
        simp only
        cases p'.parseIdentifier with
        | error e => rfl
        | ok q =>
          obtain ⟨⟨m, l⟩, p2⟩ := q
          simp only
          cases parseLiteralList (p2.remaining + 1) p2 [] with
          | panic => rfl
          | ret r => cases r <;> rfl
      | _ => rfl
  have hl : replaceValue (fun q => (replaceOperands g q.1, q.2)) (.ret p.parseLabel) = .ret p.parseLabel := by
    unfold parseLabel
    cases p.parseIdentifier with
    | error e => rfl
    | ok q =>
      obtain ⟨⟨m, l⟩, p2⟩ := q
      simp only
      cases hc : p2.consumeToken with
      | mk t p3 =>
      cases t with
      | none => rfl
      | some t => cases t <;> rfl
  have hi := instructionWith_eq h p
  unfold parseStatementWith parseStatement
  cases hc : p.current with
  | none => rfl
  | some t =>
    cases t with
    | directiveMarker l => exact hd.symm
    | identifier id l =>
      cases hn : p.next with
      | none => exact hi
      | some t =>
        cases t with
        | labelMarker l => exact hl.symm
        | _ => exact hi
    | _ => rfl

theorem statementListWith_eq (h : Replaces classify g) (fuel : Nat) (p : Parser) (nodes : List Node) :
    parseStatementListWith classify fuel p (nodes.map (replaceOperands g)) =
      replaceValue (List.map (replaceOperands g)) (parseStatementList fuel p nodes) := by
  induction fuel generalizing p nodes with
  | zero => rfl
  | succ fuel ih =>
    have key : (match parseStatementWith classify p with
      | .panic => .panic
      | .ret (.error e) => .ret (.error e)
      | .ret (.ok (node, p)) => parseStatementListWith classify fuel p (nodes.map (replaceOperands g) ++ [node]) :
        Run (Except ParseError (List Node))) =
      replaceValue (List.map (replaceOperands g)) (match p.parseStatement with
      | .panic => .panic
      | .ret (.error e) => .ret (.error e)
      | .ret (.ok (node, p)) => parseStatementList fuel p (nodes ++ [node])) := by
      rw [statementWith_eq h]
      cases p.parseStatement with
      | panic => rfl
      | ret r =>
        cases r with
        | error e => rfl
        | ok q =>
          have ih' := ih q.2 (nodes ++ [q.1])
          rw [List.map_append, List.map_cons, List.map_nil] at ih'
          exact ih'
    rw [parseStatementListWith, parseStatementList]
    cases hc : p.current with
    | none => rfl
    | some t =>
      cases t with
      | newline l => exact ih _ _
      | singleLineComment s l => exact ih _ _
      | _ => exact key

theorem parseWith_eq (h : Replaces classify g) (tokens : List Token) :
    parseWith classify tokens = replaceValue (List.map (replaceOperands g)) (parse tokens) :=
  statementListWith_eq h (tokens.length + 1) (Parser.new tokens) []

/-! ### The names of the timers -/

theorem toLower_letter {c d : Char} (hd : d = 'd' ∨ d = 't' ∨ d = 's') (h : c.toLower = d) : c = d ∨ c = d.toUpper := by
  have key : ∀ d ∈ ['d', 't', 's'], ∀ n : Fin 128, (Char.ofNat n.val).toLower = d →
      Char.ofNat n.val = d ∨ Char.ofNat n.val = d.toUpper := by decide +kernel
  by_cases hlt : c.toNat < 128
  · have := key d (by simpa using hd) ⟨c.toNat, hlt⟩
    simp only [Char.ofNat_toNat] at this
    exact this h
  · have e : c.toLower = c := by
      unfold Char.toLower
      rw [dif_neg]
      rintro ⟨_, h2⟩
      have : c.toNat ≤ 90 := h2
      omega
    exact .inl (e.symm.trans h)

theorem ignoreCase_two {id : Str} {a b : Char} (ha : a = 'd' ∨ a = 't' ∨ a = 's') (hb : b = 'd' ∨ b = 't' ∨ b = 's')
    (ea : a.toLower = a) (eb : b.toLower = b) (h : eqIgnoreCase id [a, b] = true) :
    id = [a, b] ∨ id = [a, b.toUpper] ∨ id = [a.toUpper, b] ∨ id = [a.toUpper, b.toUpper] := by
  have h := eq_of_beq h
  simp only [List.map_cons, List.map_nil, ea, eb] at h
  match id, h with
  | [c, d], h =>
    simp only [List.map_cons, List.map_nil, List.cons.injEq, and_true] at h
    rcases toLower_letter ha h.1 with rfl | rfl <;> rcases toLower_letter hb h.2 with rfl | rfl <;> simp

theorem classified_name {id name : Str} (h : fieldOfIdentifier id = .ret (.identifier name)) : name = id := by
  generalize e : Field.identifier name = f at h
  cases (operandOf_iff id f).1 h with
  | label => cases e; rfl
  | register hr =>
    subst e
    cases hr with
    | special hm => exact absurd hm (by simp [specialNames])

theorem anyCase_replaces : Replaces fieldOfAnyCase meant := by
  refine ⟨fun _ => rfl, fun id => ?_⟩
  by_cases h1 : eqIgnoreCase id "dt".toList = true
  · rcases ignoreCase_two (.inl rfl) (.inr (.inl rfl)) rfl rfl h1 with rfl | rfl | rfl | rfl <;> rfl
  · by_cases h2 : eqIgnoreCase id "st".toList = true
    · rcases ignoreCase_two (.inr (.inr rfl)) (.inr (.inl rfl)) rfl rfl h2 with rfl | rfl | rfl | rfl <;> rfl
    · rw [fieldOfAnyCase, if_neg h1, if_neg h2]
      cases hf : fieldOfIdentifier id with
      | panic => rfl
      | ret f =>
        cases f with
        | identifier name =>
          cases classified_name hf
          have n1 : ¬ (id = "Dt".toList ∨ id = "dT".toList) := by
            rintro (rfl | rfl) <;> exact h1 rfl
          have n2 : ¬ (id = "St".toList ∨ id = "sT".toList) := by
            rintro (rfl | rfl) <;> exact h2 rfl
          simp only [meant, if_neg n1, if_neg n2]
        | _ => rfl

end C8S
