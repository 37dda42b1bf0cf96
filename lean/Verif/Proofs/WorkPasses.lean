import Verif.Spec.Work
import Verif.Proofs.Work

/- Helper lemmas for C113: the passes and the overlaps. -/

namespace C8S.Work

open Spec

theorem literalSteps_eq : literalSteps = literalSize := by
  funext x
  cases x <;> rfl

theorem fieldSteps_eq : fieldSteps = fieldSize := by
  funext x
  cases x <;> rfl

/-! ### The result -/

theorem readDirective_run (name : Str) (args : List Literal) :
    (readDirective name args).run = .ret (Directive.fromIdentifierAndParameters name args) := rfl

theorem readDirective_steps (name : Str) (args : List Literal) (l : Loc) :
    (readDirective name args).steps = nodeSize (.directive l name args) := by
  unfold readDirective
  rw [tick_bind_steps, literalSteps_eq]
  rfl

theorem peekConstant_run (nodes : List Node) : (peekConstant nodes).run = .ret (C8S.peekConstant nodes) := by
  cases nodes with
  | nil => rfl
  | cons n rest =>
    cases n with
    | label l s => rfl
    | instruction l s fs => rfl
    | directive l s args =>
      unfold peekConstant C8S.peekConstant
      simp only [run_bind, readDirective_run, Run.ret_bind]
      cases Directive.fromIdentifierAndParameters s args with
      | error e => rfl
      | ok d => cases d <;> rfl

theorem defineLabelsLoop_run (n : Nat) : ∀ (nodes : List Node) (current : U12) (labels : LabelMap), nodes.length ≤ n →
    (defineLabelsLoop nodes current labels).run = .ret (C8S.defineLabelsLoop nodes current labels) := by
  induction n with
  | zero =>
    intro nodes current labels hn
    cases nodes with
    | nil =>
      rw [defineLabelsLoop.eq_def, C8S.defineLabelsLoop.eq_def]
      rfl
    | cons x rest => simp at hn
  | succ n ih =>
    intro nodes current labels hn
    cases nodes with
    | nil =>
      rw [defineLabelsLoop.eq_def, C8S.defineLabelsLoop.eq_def]
      rfl
    | cons x rest =>
      have hr : rest.length ≤ n := by simp at hn; omega
      rw [defineLabelsLoop.eq_def, C8S.defineLabelsLoop.eq_def]
      cases x with
      | directive l s args =>
        simp only [run_bind, readDirective_run, Run.ret_bind]
        cases Directive.fromIdentifierAndParameters s args with
        | error e => rfl
        | ok d =>
          simp only []
          cases failableInto12 d.size with
          | none => rfl
          | some size =>
            simp only []
            cases checkedAdd current size with
            | none => rfl
            | some c =>
              cases d with
              | org a => exact ih rest _ _ hr
              | db b => exact ih rest _ _ hr
              | equ v => rfl
      | label l s =>
        simp only [run_bind, peekConstant_run, Run.ret_bind]
        by_cases h : (labels.get s).isSome = true
        · simp only [if_pos h]
          rfl
        · simp only [if_neg h, tick_bind_run]
          cases rest with
          | nil => exact ih [] _ _ hr
          | cons y rest' =>
            cases C8S.peekConstant (y :: rest') with
            | none => exact ih (y :: rest') _ _ hr
            | some v => exact ih rest' _ _ (by simp at hr; omega)
      | instruction l s fs =>
        simp only [tick_bind_run]
        cases checkedAdd current 2 with
        | none => rfl
        | some c => exact ih rest _ _ hr

theorem emitLoop_run (nodes : List Node) (labels : LabelMap) (current : DataRange) (ranges : List DataRange) :
    (emitLoop nodes labels current ranges).run = C8S.emitLoop nodes labels current ranges := by
  induction nodes generalizing current ranges with
  | nil => rfl
  | cons x rest ih =>
    cases x with
    | label l s =>
      rw [emitLoop, C8S.emitLoop, tick_bind_run, ih]
    | instruction l s fs =>
      rw [emitLoop, C8S.emitLoop, tick_bind_run, tick_bind_run]
      cases Instruction.fromMnemonicAndParameters s fs labels with
      | error e => rfl
      | ok op =>
        simp only [run_bind, run_free, appendAsserted, ih]
        cases Instruction.intoVec op with
        | panic => rfl
        | ret bytes =>
          simp only [Run.ret_bind]
          cases C8S.appendAsserted current bytes <;> rfl
    | directive l s args =>
      rw [emitLoop.eq_def, C8S.emitLoop.eq_def]
      simp only [run_bind, readDirective_run, Run.ret_bind]
      cases Directive.fromIdentifierAndParameters s args with
      | error e => rfl
      | ok d =>
        cases d with
        | org a => exact ih _ _
        | db b =>
          simp only [run_bind, run_free, appendAsserted, ih]
          cases C8S.appendAsserted current (Directive.db b).intoVec <;> rfl
        | equ v =>
          simp only [run_bind, run_free, appendAsserted, ih]
          cases C8S.appendAsserted current (Directive.equ v).intoVec <;> rfl

theorem assemble_run (nodes : List Node) : (assemble nodes).run = C8S.assemble nodes := by
  unfold assemble C8S.assemble defineLabels C8S.defineLabels
  rw [run_bind, defineLabelsLoop_run _ nodes _ _ (Nat.le_refl _), Run.ret_bind]
  cases C8S.defineLabelsLoop nodes 0 [] with
  | error e => rfl
  | ok labels => exact emitLoop_run nodes labels _ _

theorem overlapsOf_spec (lhs : DataRange) (ranges : List DataRange) :
    (overlapsOf lhs ranges).run = .ret ((ranges.filter lhs.intersects).map fun rhs => (lhs, rhs)) ∧
    (overlapsOf lhs ranges).steps = ranges.length := by
  induction ranges with
  | nil => exact ⟨rfl, rfl⟩
  | cons rhs rest ih =>
    unfold overlapsOf
    rw [tick_bind_run, tick_bind_steps, run_bind, steps_bind ih.1, ih.1, ih.2]
    refine ⟨?_, by simp; omega⟩
    by_cases h : lhs.intersects rhs = true
    · rw [Run.ret_bind, if_pos h, List.filter_cons_of_pos h]; rfl
    · rw [Run.ret_bind, if_neg h, List.filter_cons_of_neg h]; rfl

theorem overlaps_spec (ranges : List DataRange) :
    (findOverlappingRanges ranges).run = .ret (C8S.findOverlappingRanges ranges) ∧
    2 * (findOverlappingRanges ranges).steps = ranges.length * (ranges.length - 1) := by
  rw [findOverlapping_eq_pairs]
  induction ranges with
  | nil => exact ⟨rfl, rfl⟩
  | cons lhs rest ih =>
    obtain ⟨h1, h2⟩ := overlapsOf_spec lhs rest
    unfold findOverlappingRanges
    rw [run_bind, steps_bind h1, h1, h2, Run.ret_bind, run_bind, steps_bind ih.1, ih.1, Run.ret_bind]
    refine ⟨rfl, ?_⟩
    simp only [steps_pure, Nat.add_zero, List.length_cons, Nat.add_sub_cancel, Nat.mul_add, ih.2]
    cases rest.length with
    | zero => rfl
    | succ n => simp only [Nat.add_sub_cancel, Nat.mul_add, Nat.add_mul]; omega

/-! ### The steps of the passes -/

/-- The size of the first statement, if it is a directive. -/
def headSize : List Node → Nat
  | .directive l s args :: _ => nodeSize (.directive l s args)
  | _ => 0

theorem peekConstant_steps (nodes : List Node) : (peekConstant nodes).steps = headSize nodes := by
  cases nodes with
  | nil => rfl
  | cons n rest =>
    cases n with
    | label l s => rfl
    | instruction l s fs => rfl
    | directive l s args =>
      unfold peekConstant headSize
      rw [steps_bind (readDirective_run s args), readDirective_steps s args l]
      cases Directive.fromIdentifierAndParameters s args with
      | error e => rfl
      | ok d => cases d <;> rfl

theorem programSize_cons (x : Node) (rest : List Node) : programSize (x :: rest) = nodeSize x + programSize rest := by
  simp [programSize]

theorem headSize_le (nodes : List Node) : headSize nodes ≤ programSize nodes := by
  cases nodes with
  | nil => exact Nat.zero_le _
  | cons n rest =>
    rw [programSize_cons]
    cases n with
    | label l s => exact Nat.zero_le _
    | instruction l s fs => exact Nat.zero_le _
    | directive l s args =>
      show nodeSize (.directive l s args) ≤ _
      omega

theorem defineLabelsLoop_steps (n : Nat) : ∀ (nodes : List Node) (current : U12) (labels : LabelMap), nodes.length ≤ n →
    (defineLabelsLoop nodes current labels).steps + headSize nodes ≤ 3 * programSize nodes := by
  induction n with
  | zero =>
    intro nodes current labels hn
    cases nodes with
    | nil =>
      rw [defineLabelsLoop.eq_def]
      exact Nat.le_refl 0
    | cons x rest => simp at hn
  | succ n ih =>
    intro nodes current labels hn
    cases nodes with
    | nil =>
      rw [defineLabelsLoop.eq_def]
      exact Nat.le_refl 0
    | cons x rest =>
      have hr : rest.length ≤ n := by simp at hn; omega
      rw [defineLabelsLoop.eq_def, programSize_cons]
      cases x with
      | directive l s args =>
        have hpos : 1 ≤ nodeSize (.directive l s args) := by simp only [nodeSize]; omega
        simp only [tick_bind_steps, headSize]
        rw [steps_bind (readDirective_run s args), readDirective_steps s args l]
        generalize hN : nodeSize (.directive l s args) = N at *
        have hrest : ∀ c ls, (defineLabelsLoop rest c ls).steps ≤ 3 * programSize rest := fun c ls => by
          have := ih rest c ls hr
          omega
        have key : ∀ w : Work (Except SemanticError LabelMap), w.steps ≤ 3 * programSize rest →
            1 + (N + w.steps) + N ≤ 3 * (N + programSize rest) := fun w hw => by omega
        refine key _ ?_
        cases Directive.fromIdentifierAndParameters s args with
        | error e => exact Nat.zero_le _
        | ok d =>
          simp only []
          cases failableInto12 d.size with
          | none => exact Nat.zero_le _
          | some size =>
            simp only []
            cases checkedAdd current size with
            | none => exact Nat.zero_le _
            | some c =>
              cases d with
              | org a => exact hrest _ _
              | db b => exact hrest _ _
              | equ v => exact Nat.zero_le _
      | label l s =>
        simp only [tick_bind_steps, headSize, nodeSize]
        rw [steps_bind (peekConstant_run rest), tick_bind_steps, peekConstant_steps]
        have hh := headSize_le rest
        by_cases h : (labels.get s).isSome = true
        · simp only [if_pos h, steps_pure]
          omega
        · simp only [if_neg h, tick_bind_steps]
          cases rest with
          | nil =>
            have := ih [] current ((s, current) :: labels) hr
            have hp : C8S.peekConstant [] = none := rfl
            simp only [hp] at this ⊢
            omega
          | cons y rest' =>
            cases hp : C8S.peekConstant (y :: rest') with
            | none =>
              have := ih (y :: rest') current ((s, current) :: labels) hr
              simp only at this ⊢
              omega
            | some v =>
              have := ih rest' current ((s, v) :: labels) (by simp at hr; omega)
              have hy : headSize (y :: rest') ≤ nodeSize y := by
                cases y with
                | label l s => exact Nat.zero_le _
                | instruction l s fs => exact Nat.zero_le _
                | directive l s args => exact Nat.le_refl _
              simp only [programSize_cons] at this ⊢
              omega
      | instruction l s fs =>
        simp only [tick_bind_steps, headSize, nodeSize]
        cases checkedAdd current 2 with
        | none =>
          simp only [steps_pure]
          omega
        | some c =>
          have := ih rest c labels hr
          simp only
          omega

theorem emits_size {args : List Literal} {bytes : List U8} (h : EmitsAll args bytes) : bytes.length ≤ (args.map literalSize).sum := by
  induction h with
  | nil => exact Nat.le_refl _
  | number _ ih => simp only [List.length_cons, List.map_cons, List.sum_cons, literalSize]; omega
  | string _ ih =>
    simp only [List.length_append, List.map_cons, List.sum_cons, literalSize, utf8_length]
    omega

theorem directive_bytes {name : Str} {args : List Literal} {d : Directive}
    (h : Directive.fromIdentifierAndParameters name args = .ok d) : d.intoVec.length ≤ (args.map literalSize).sum := by
  by_cases hn : SameLetters name "db".toList
  · exact emits_size (C20_db name hn args d h).1
  · rw [(C20_others name args d h hn).1]
    exact Nat.zero_le _

theorem instruction_bytes {op : Opcode} {bytes : List U8} (h : Instruction.intoVec op = .ret bytes) : bytes.length = 2 := by
  unfold Instruction.intoVec at h
  cases ho : op.asInstruction with
  | panic => rw [ho] at h; cases h
  | ret w => rw [ho] at h; cases h; rfl

theorem append_steps {range : DataRange} {bytes : List U8} : (appendAsserted range bytes).steps = bytes.length := by
  unfold appendAsserted
  rw [tick_bind_steps]
  rfl

theorem emitLoop_steps (nodes : List Node) (labels : LabelMap) (current : DataRange) (ranges : List DataRange)
    (out : Except SemanticError (List DataRange)) (h : (emitLoop nodes labels current ranges).run = .ret out) :
    (emitLoop nodes labels current ranges).steps ≤ 4 * programSize nodes := by
  induction nodes generalizing current ranges with
  | nil => exact Nat.zero_le _
  | cons x rest ih =>
    rw [programSize_cons]
    cases x with
    | label l s =>
      rw [emitLoop, tick_bind_run] at h
      rw [emitLoop, tick_bind_steps]
      have := ih _ _ h
      simp only [nodeSize]
      omega
    | instruction l s fs =>
      rw [emitLoop, tick_bind_run, tick_bind_run] at h
      rw [emitLoop, tick_bind_steps, tick_bind_steps, fieldSteps_eq]
      simp only [nodeSize]
      cases hi : Instruction.fromMnemonicAndParameters s fs labels with
      | error e =>
        simp only [steps_pure]
        omega
      | ok op =>
        rw [hi] at h
        simp only at h ⊢
        obtain ⟨bytes, h1, h2, e1⟩ := bind_inv h
        obtain ⟨c, h3, h4, e2⟩ := bind_inv h2
        have := ih _ _ h4
        have hb := instruction_bytes h1
        rw [e1, e2, append_steps, hb]
        simp only [steps_free]
        omega
    | directive l s args =>
      rw [emitLoop.eq_def] at h ⊢
      simp only [tick_bind_run, tick_bind_steps] at h ⊢
      rw [run_bind, readDirective_run, Run.ret_bind] at h
      rw [steps_bind (readDirective_run s args), readDirective_steps s args l]
      have hpos : 1 + (args.map literalSize).sum ≤ nodeSize (.directive l s args) := by simp only [nodeSize]; omega
      generalize nodeSize (.directive l s args) = N at *
      cases hd : Directive.fromIdentifierAndParameters s args with
      | error e =>
        simp only [steps_free]
        omega
      | ok d =>
        have hb := directive_bytes hd
        rw [hd] at h
        cases d with
        | org a =>
          have := ih _ _ h
          simp only
          omega
        | db b =>
          obtain ⟨c, h3, h4, e2⟩ := bind_inv h
          have := ih _ _ h4
          simp only [e2, append_steps]
          omega
        | equ v =>
          obtain ⟨c, h3, h4, e2⟩ := bind_inv h
          have := ih _ _ h4
          simp only [e2, append_steps]
          omega

theorem assemble_steps (nodes : List Node) (out : Except SemanticError (List DataRange)) (h : C8S.assemble nodes = .ret out) :
    (assemble nodes).steps ≤ 7 * programSize nodes := by
  rw [← assemble_run] at h
  unfold assemble at h ⊢
  obtain ⟨r, h1, h2, e⟩ := bind_inv h
  have h3 := defineLabelsLoop_steps _ nodes 0 [] (Nat.le_refl _)
  rw [e]
  unfold defineLabels
  cases r with
  | error er =>
    simp only [steps_pure]
    omega
  | ok labels =>
    have := emitLoop_steps nodes labels _ _ out h2
    simp only
    omega

/-! ### The size of a program and of its text -/

theorem literals_size {b : Bool} {args : List Token} {xs : List Literal} (h : ItemList LiteralTok b args xs) :
    (xs.map literalSize).sum ≤ args.length + (args.map weight).sum := by
  induction h with
  | empty => exact Nat.le_refl _
  | one ht =>
    cases ht <;> simp [literalSize, weight]
  | more ht _ ih =>
    cases ht <;> simp only [List.map_cons, List.sum_cons, List.length_cons, literalSize, weight] <;> omega

theorem operand_size {t : Token} {f : Field} (h : OperandTok t f) : fieldSize f ≤ 1 + weight t := by
  cases h with
  | numeric _ => simp [fieldSize]
  | name h =>
    cases h with
    | label _ => exact Nat.le_refl _
    | register h =>
      cases h with
      | general _ _ => simp [fieldSize]
      | special h =>
        have : ∀ p ∈ specialNames, fieldSize p.2 = 1 := by decide
        rw [this _ h]
        omega

theorem fields_size {b : Bool} {args : List Token} {fs : List Field} (h : ItemList OperandTok b args fs) :
    (fs.map fieldSize).sum ≤ args.length + (args.map weight).sum := by
  induction h with
  | empty => exact Nat.le_refl _
  | one ht =>
    have := operand_size ht
    simp only [List.map_cons, List.map_nil, List.sum_cons, List.sum_nil, List.length_cons, List.length_nil]
    omega
  | more ht _ ih =>
    have := operand_size ht
    simp only [List.map_cons, List.sum_cons, List.length_cons]
    omega

theorem program_size {ts : List Token} {ns : List Node} (h : Program ts ns) :
    programSize ns ≤ ts.length + (ts.map weight).sum := by
  induction h with
  | empty => exact Nat.le_refl _
  | blank _ _ ih => simp only [List.map_cons, List.sum_cons, List.length_cons]; omega
  | label _ ih =>
    rw [programSize_cons]
    simp only [List.map_cons, List.sum_cons, List.length_cons, nodeSize, weight]
    omega
  | directive hi _ _ ih =>
    have := literals_size hi
    rw [programSize_cons]
    simp only [List.map_cons, List.map_append, List.sum_cons, List.sum_append, List.length_cons, List.length_append, nodeSize, weight]
    omega
  | instruction hi _ _ ih =>
    have := fields_size hi
    rw [programSize_cons]
    simp only [List.map_cons, List.map_append, List.sum_cons, List.sum_append, List.length_cons, List.length_append, nodeSize, weight]
    omega

end C8S.Work
