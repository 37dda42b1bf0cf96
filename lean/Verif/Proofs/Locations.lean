import Verif.Spec.Locations
import Verif.Proofs.Grammar

/- Parsing and assembling do not depend on locations. -/

namespace C8S

open Spec

variable (f : Loc → Loc)

theorem litItem_map (t : Token) : litItem (mapLoc f t) = litItem t := by cases t <;> rfl

theorem fieldItem_map (t : Token) : fieldItem (mapLoc f t) = fieldItem t := by cases t <;> rfl

theorem litStop_map (t : Token) : litStop (mapLoc f t) = litStop t := by cases t <;> rfl

theorem fieldStop_map (t : Token) : fieldStop (mapLoc f t) = fieldStop t := by cases t <;> rfl

def listMap {α : Type} : Except ParseError (List α × List Token) → Except ParseError (List α × List Token)
  | .ok (xs, rest) => .ok (xs, rest.map (mapLoc f))
  | .error e => .error (parseErrorMap f e)

theorem itemList_map {α : Type} {item : Token → Option α} {stop : Token → Bool} {exp : List Str}
    (hi : ∀ t, item (mapLoc f t) = item t) (hs : ∀ t, stop (mapLoc f t) = stop t) (n : Nat) : ∀ ts : List Token, ts.length ≤ n →
    itemList item stop exp (ts.map (mapLoc f)) = listMap f (itemList item stop exp ts) := by
  induction n with
  | zero =>
    intro ts h
    have : ts = [] := List.length_eq_zero_iff.1 (by omega)
    subst this
    rfl
  | succ n ih =>
    intro ts h
    cases ts with
    | nil => rfl
    | cons t r =>
      rw [List.map_cons, itemList.eq_def, itemList.eq_def item stop exp (t :: r)]
      simp only [hi, hs]
      split
      · rfl
      · cases item t with
        | none => rfl
        | some x =>
          simp only
          cases r with
          | nil => rfl
          | cons t' r =>
            cases t' with
            | comma l =>
              simp only [List.map_cons, mapLoc]
              rw [ih r (by simp at h; omega)]
              cases itemList item stop exp r with
              | error e => rfl
              | ok p => rfl
            | _ => rfl

theorem isBlankTok_map (t : Token) : isBlankTok (mapLoc f t) = isBlankTok t := by cases t <;> rfl

theorem startsMarker_map (ts : List Token) : StartsMarker (ts.map (mapLoc f)) ↔ StartsMarker ts := by
  cases ts with
  | nil => simp [StartsMarker]
  | cons t ts => cases t <;> simp [StartsMarker, mapLoc]

theorem outcome_map {ts : List Token} {out : Except ParseError (List Node)} (h : ParseOutcome ts out) :
    ParseOutcome (ts.map (mapLoc f)) (parsedMap f out) := by
  have hmap : ∀ (out : Except ParseError (List Node)) (n : Node),
      parsedMap f (out.map (n :: ·)) = (parsedMap f out).map (nodeMap f n :: ·) := by
    intro out n
    cases out <;> rfl
  induction h with
  | empty => exact .empty
  | blank hb _ ih => exact .blank (by rw [isBlankTok_map]; exact hb) ih
  | label _ ih =>
    rw [hmap]
    exact .label ih
  | directive hl _ ih =>
    rw [hmap]
    refine .directive ?_ ih
    rw [itemList_map f (litItem_map f) (litStop_map f) _ _ (Nat.le_refl _), hl]
    rfl
  | directiveError hl =>
    refine .directiveError ?_
    rw [itemList_map f (litItem_map f) (litStop_map f) _ _ (Nat.le_refl _), hl]
    rfl
  | directiveEnd => exact .directiveEnd
  | @directiveName l t ts hi =>
    refine .directiveName ?_
    cases t <;> simp_all [isIdent, mapLoc]
  | instruction hm hl _ ih =>
    rw [hmap]
    refine .instruction (by rw [startsMarker_map]; exact hm) ?_ ih
    rw [itemList_map f (fieldItem_map f) (fieldStop_map f) _ _ (Nat.le_refl _), hl]
    rfl
  | instructionError hm hl =>
    refine .instructionError (by rw [startsMarker_map]; exact hm) ?_
    rw [itemList_map f (fieldItem_map f) (fieldStop_map f) _ _ (Nat.le_refl _), hl]
    rfl
  | @statement t ts hb hs =>
    refine .statement (by rw [isBlankTok_map]; exact hb) ?_
    cases t <;> simp_all [starts, mapLoc]

/-- Parsing commutes with changing locations. -/
theorem parse_map {tokens : List Token} {out : Except ParseError (List Node)} (h : parse tokens = .ret out) :
    parse (tokens.map (mapLoc f)) = .ret (parsedMap f out) :=
  (parse_iff _ _).2 (outcome_map f ((parse_iff _ _).1 h))

theorem peekConstant_map (ns : List Node) : peekConstant (ns.map (nodeMap f)) = peekConstant ns := by
  cases ns with
  | nil => rfl
  | cons n ns => cases n <;> rfl

theorem defineLabelsLoop_map (n : Nat) : ∀ (ns : List Node) (current : U12) (labels : LabelMap), ns.length ≤ n →
    defineLabelsLoop (ns.map (nodeMap f)) current labels = assembledMap f (defineLabelsLoop ns current labels) := by
  induction n with
  | zero =>
    intro ns current labels h
    have : ns = [] := List.length_eq_zero_iff.1 (by omega)
    subst this
    rfl
  | succ n ih =>
    intro ns current labels h
    cases ns with
    | nil => rfl
    | cons m ns =>
      have ih' : ∀ current labels, defineLabelsLoop (ns.map (nodeMap f)) current labels =
          assembledMap f (defineLabelsLoop ns current labels) := fun c l => ih ns c l (by simp at h; omega)
      cases m with
      | directive l s xs =>
        simp only [List.map_cons, nodeMap]
        rw [defineLabelsLoop.eq_def, defineLabelsLoop.eq_def (.directive l s xs :: ns)]
        simp only
        cases Directive.fromIdentifierAndParameters s xs with
        | error e => rfl
        | ok d =>
          simp only
          cases failableInto12 d.size with
          | none => rfl
          | some size =>
            simp only
            cases checkedAdd current size with
            | none => rfl
            | some c =>
              cases d with
              | org a => exact ih' _ _
              | db b => exact ih' _ _
              | equ v => rfl
      | label l s =>
        simp only [List.map_cons, nodeMap]
        rw [defineLabelsLoop.eq_def, defineLabelsLoop.eq_def (.label l s :: ns)]
        simp only [peekConstant_map]
        split
        · rfl
        · cases hp : peekConstant ns with
          | none =>
            simp only [Option.getD_none]
            cases ns with
            | nil => exact ih' _ _
            | cons n ns => exact ih' _ _
          | some v =>
            cases ns with
            | nil => cases hp
            | cons m ns =>
              simp only [List.map_cons]
              exact ih ns _ _ (by simp at h; omega)
      | instruction l s fs =>
        simp only [List.map_cons, nodeMap]
        rw [defineLabelsLoop.eq_def, defineLabelsLoop.eq_def (.instruction l s fs :: ns)]
        simp only
        cases checkedAdd current 2 with
        | none => rfl
        | some c => exact ih' _ _

def runMap {α : Type} : Run (Except SemanticError α) → Run (Except SemanticError α)
  | .panic => .panic
  | .ret out => .ret (assembledMap f out)

theorem emitLoop_map (ns : List Node) : ∀ (labels : LabelMap) (current : DataRange) (ranges : List DataRange),
    emitLoop (ns.map (nodeMap f)) labels current ranges = runMap f (emitLoop ns labels current ranges) := by
  induction ns with
  | nil => intro labels current ranges; rfl
  | cons m ns ih =>
    intro labels current ranges
    cases m with
    | directive l s xs =>
      simp only [List.map_cons, nodeMap]
      rw [emitLoop.eq_def, emitLoop.eq_def (.directive l s xs :: ns)]
      simp only
      cases Directive.fromIdentifierAndParameters s xs with
      | error e => rfl
      | ok d =>
        cases d with
        | org a => exact ih _ _ _
        | db b =>
          simp only
          cases appendAsserted current (Directive.db b).intoVec with
          | panic => rfl
          | ret c => exact ih _ _ _
        | equ v =>
          simp only
          cases appendAsserted current (Directive.equ v).intoVec with
          | panic => rfl
          | ret c => exact ih _ _ _
    | label l s => exact ih _ _ _
    | instruction l s fs =>
      simp only [List.map_cons, nodeMap]
      rw [emitLoop.eq_def, emitLoop.eq_def (.instruction l s fs :: ns)]
      simp only
      cases Instruction.fromMnemonicAndParameters s fs labels with
      | error e => rfl
      | ok i =>
        simp only
        cases Instruction.intoVec i with
        | panic => rfl
        | ret bytes =>
          simp only
          cases appendAsserted current bytes with
          | panic => rfl
          | ret c => exact ih _ _ _

theorem assemble_run (nodes : List Node) : assemble (nodes.map (nodeMap f)) = runMap f (assemble nodes) := by
  unfold assemble
  unfold defineLabels
  rw [defineLabelsLoop_map f _ _ _ _ (Nat.le_refl _)]
  cases hd : defineLabelsLoop nodes 0 [] with
  | error e => rfl
  | ok labels =>
    simp only [assembledMap]
    unfold emitDataRanges
    rw [emitLoop_map]

/-- Assembling commutes with changing locations. -/
theorem assemble_map {nodes : List Node} {out : Except SemanticError (List DataRange)} (h : assemble nodes = .ret out) :
    assemble (nodes.map (nodeMap f)) = .ret (assembledMap f out) := by
  rw [assemble_run, h]
  rfl

end C8S
