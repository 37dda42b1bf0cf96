import Verif.Spec.Table

/- Lemmas for C108. -/

namespace C8S

open Spec

namespace Table

variable {M : Type} [LabelTable M]

/-- The table and the association list have the same entries. -/
def Agree (t : M) (m : LabelMap) : Prop := ∀ label, LabelTable.get t label = m.get label

theorem resolveLabel_eq {t : M} {m : LabelMap} (h : Agree t m) (label : Str) :
    resolveLabel label t = resolveLabelWithMap label m := by
  unfold resolveLabel resolveLabelWithMap
  rw [h label]
  rfl

theorem match1_eq {t : M} {m : LabelMap} (h : Agree t m) (mnemonic : Str) (f0 : Field) :
    match1 mnemonic f0 t = Instruction.match1 mnemonic f0 m := by
  unfold match1 Instruction.match1
  simp only [resolveLabel_eq h]
  rfl

theorem imm8LabelArm_eq {t : M} {m : LabelMap} (h : Agree t m) (ctor : U8 → Opcode) (label : Str) :
    imm8LabelArm ctor label t = Instruction.imm8LabelArm ctor label m := by
  unfold imm8LabelArm Instruction.imm8LabelArm
  rw [resolveLabel_eq h]
  rfl

theorem imm12LabelArm_eq {t : M} {m : LabelMap} (h : Agree t m) (ctor : U12 → Opcode) (label : Str) :
    imm12LabelArm ctor label t = Instruction.imm12LabelArm ctor label m := by
  unfold imm12LabelArm Instruction.imm12LabelArm
  rw [resolveLabel_eq h]
  rfl

theorem match2_eq {t : M} {m : LabelMap} (h : Agree t m) (mnemonic : Str) (f0 f1 : Field) :
    match2 mnemonic f0 f1 t = Instruction.match2 mnemonic f0 f1 m := by
  unfold match2 Instruction.match2
  simp only [imm8LabelArm_eq h, imm12LabelArm_eq h]
  rfl

theorem match3_eq {t : M} {m : LabelMap} (h : Agree t m) (mnemonic : Str) (f0 f1 f2 : Field) :
    match3 mnemonic f0 f1 f2 t = Instruction.match3 mnemonic f0 f1 f2 m := by
  unfold match3 Instruction.match3
  simp only [resolveLabel_eq h]
  rfl

theorem from_eq {t : M} {m : LabelMap} (h : Agree t m) (mnemonic : Str) (fields : List Field) :
    fromMnemonicAndParameters mnemonic fields t = Instruction.fromMnemonicAndParameters mnemonic fields m := by
  unfold fromMnemonicAndParameters Instruction.fromMnemonicAndParameters
  simp only [match1_eq h, match2_eq h, match3_eq h]
  rfl

theorem emitLoop_eq {t : M} {m : LabelMap} (h : Agree t m) : ∀ (nodes : List Node) (current : DataRange)
    (ranges : List DataRange), emitLoop nodes t current ranges = C8S.emitLoop nodes m current ranges := by
  intro nodes
  induction nodes with
  | nil => intro current ranges; rfl
  | cons node rest ih =>
    intro current ranges
    cases node with
    | label loc identifier => exact ih current ranges
    | directive loc identifier arguments =>
      unfold emitLoop C8S.emitLoop
      simp only [ih]
      rfl
    | instruction loc mnemonic fields =>
      unfold emitLoop C8S.emitLoop
      simp only [ih, from_eq h]
      rfl

/-- The same error, or tables with the same entries. -/
def SameLabels (good : M → Prop) : Except SemanticError M → Except SemanticError LabelMap → Prop
  | .error e, .error e' => e = e'
  | .ok t, .ok m => good t ∧ Agree t m
  | _, _ => False

theorem defineLabelsLoop_same {good : M → Prop} (hM : IsMap M good) : ∀ (n : Nat) (nodes : List Node) (current : U12)
    (t : M) (m : LabelMap), nodes.length ≤ n → good t → Agree t m →
    SameLabels good (defineLabelsLoop nodes current t) (C8S.defineLabelsLoop nodes current m) := by
  intro n
  induction n with
  | zero =>
    intro nodes current t m hl hg ha
    rw [List.length_eq_zero_iff.1 (by omega : nodes.length = 0)]
    exact ⟨hg, ha⟩
  | succ n ih =>
    intro nodes current t m hl hg ha
    cases nodes with
    | nil => exact ⟨hg, ha⟩
    | cons node rest =>
      simp only [List.length_cons] at hl
      cases node with
      | instruction loc mnemonic fields =>
        unfold defineLabelsLoop C8S.defineLabelsLoop
        cases checkedAdd current 2 with
        | none => exact rfl
        | some current => exact ih rest current t m (by omega) hg ha
      | directive loc identifier arguments =>
        unfold defineLabelsLoop C8S.defineLabelsLoop
        cases Directive.fromIdentifierAndParameters identifier arguments with
        | error reason => exact rfl
        | ok directive =>
          simp only
          cases failableInto12 directive.size with
          | none => exact rfl
          | some size =>
            simp only
            cases checkedAdd current size with
            | none => exact rfl
            | some current =>
              cases directive with
              | org address => exact ih rest address t m (by omega) hg ha
              | db bytes => exact ih rest current t m (by omega) hg ha
              | equ constant => exact rfl
      | label loc identifier =>
        unfold defineLabelsLoop C8S.defineLabelsLoop
        simp only
        rw [hM.contains t identifier hg, ha identifier]
        by_cases hc : (m.get identifier).isSome = true
        · rw [if_pos hc, if_pos hc]
          exact rfl
        · rw [if_neg hc, if_neg hc]
          have hnone : LabelTable.get t identifier = none := by
            rw [ha identifier]
            simpa using hc
          have hins : ∀ value, Agree (LabelTable.insert t identifier value) ((identifier, value) :: m) := by
            intro value label
            rw [hM.get_insert t identifier value label hg hnone, ha label]
            unfold LabelMap.get
            rw [List.lookup_cons]
            by_cases e : label = identifier
            · subst e
              simp
            · rw [if_neg e, beq_false_of_ne e]
          cases rest with
          | nil => exact ⟨hM.insert_good _ _ _ hg hnone, hins _⟩
          | cons next rest' =>
            simp only [List.length_cons] at hl
            cases hp : peekConstant (next :: rest') with
            | none => exact ih _ _ _ _ (by simp only [List.length_cons]; omega) (hM.insert_good _ _ _ hg hnone) (hins _)
            | some constant => exact ih _ _ _ _ (by omega) (hM.insert_good _ _ _ hg hnone) (hins _)

theorem assemble_eq {good : M → Prop} (hM : IsMap M good) (nodes : List Node) : assemble M nodes = C8S.assemble nodes := by
  have h := defineLabelsLoop_same hM nodes.length nodes 0 LabelTable.empty [] (Nat.le_refl _) hM.empty_good
    (fun label => hM.get_empty label)
  unfold assemble C8S.assemble defineLabels
  generalize defineLabelsLoop nodes 0 (LabelTable.empty : M) = a at h
  generalize C8S.defineLabelsLoop nodes 0 [] = b at h
  cases a with
  | error e =>
    cases b with
    | error e' =>
      cases h
      rfl
    | ok m => exact h.elim
  | ok t =>
    cases b with
    | error e' => exact h.elim
    | ok m => exact emitLoop_eq h.2 nodes _ _

end Table

namespace Buckets

variable {hash : Str → Nat} {grow : Nat → Nat}

/-- Every entry is in the chain of its key. -/
def Placed (hash : Str → Nat) (size : Nat) (chains : Nat → List (Str × U12)) : Prop :=
  ∀ i entry, entry ∈ chains i → i = slot hash size entry.1

theorem put_placed {size : Nat} {chains : Nat → List (Str × U12)} (h : Placed hash size chains) (entry : Str × U12) :
    Placed hash size (put hash size chains entry) := by
  intro i e he
  unfold put at he
  by_cases hi : i = slot hash size entry.1
  · rw [if_pos hi] at he
    rcases List.mem_cons.1 he with rfl | he
    · exact hi
    · exact h i e he
  · rw [if_neg hi] at he
    exact h i e he

theorem put_lookup (size : Nat) (chains : Nat → List (Str × U12)) (key : Str) (value : U12) (key' : Str) :
    (put hash size chains (key, value) (slot hash size key')).lookup key' =
      if key' = key then some value else (chains (slot hash size key')).lookup key' := by
  unfold put
  by_cases e : key' = key
  · subst e
    simp
  · rw [if_neg e]
    by_cases hs : slot hash size key' = slot hash size key
    · rw [if_pos hs, List.lookup_cons, beq_false_of_ne e]
    · rw [if_neg hs]

theorem fold_placed (size : Nat) (entries : List (Str × U12)) :
    Placed hash size (entries.foldr (fun entry acc => put hash size acc entry) fun _ => []) := by
  induction entries with
  | nil =>
    intro i e he
    cases he
  | cons entry rest ih => exact put_placed ih entry

theorem fold_lookup (size : Nat) (entries : List (Str × U12)) (key : Str) :
    (entries.foldr (fun entry acc => put hash size acc entry) (fun _ => []) (slot hash size key)).lookup key =
      entries.lookup key := by
  induction entries with
  | nil => rfl
  | cons entry rest ih =>
    obtain ⟨k, v⟩ := entry
    rw [List.foldr_cons, put_lookup, List.lookup_cons, ih]
    by_cases e : key = k
    · subst e
      simp
    · rw [if_neg e, beq_false_of_ne e]

theorem lookup_none {key : Str} : ∀ {entries : List (Str × U12)}, (∀ e ∈ entries, e.1 ≠ key) → entries.lookup key = none
  | [], _ => rfl
  | (k, v) :: rest, h => by
    rw [List.lookup_cons, beq_false_of_ne fun e => h (k, v) (by simp) e.symm]
    exact lookup_none fun e he => h e (List.mem_cons_of_mem _ he)

theorem lookup_append {key : Str} : ∀ (a b : List (Str × U12)),
    (a ++ b).lookup key = (a.lookup key).or (b.lookup key)
  | [], _ => rfl
  | (k, v) :: rest, b => by
    rw [List.cons_append, List.lookup_cons, List.lookup_cons, lookup_append rest b]
    cases key == k <;> rfl

/-- All entries one chain after the other. -/
theorem chains_lookup {size : Nat} {chains : Nat → List (Str × U12)} (h : Placed hash size chains) (key : Str) :
    ∀ n, ((List.range n).flatMap chains).lookup key =
      if slot hash size key < n then (chains (slot hash size key)).lookup key else none := by
  intro n
  induction n with
  | zero => rfl
  | succ n ih =>
    rw [List.range_succ, List.flatMap_append, lookup_append, ih, List.flatMap_singleton]
    by_cases h1 : slot hash size key < n
    · rw [if_pos h1, if_pos (by omega)]
      have : (chains n).lookup key = none := lookup_none fun e he hk => by
        have := h n e he
        rw [hk] at this
        omega
      rw [this, Option.or_none]
    · rw [if_neg h1, Option.none_or]
      by_cases h2 : slot hash size key = n
      · rw [if_pos (by omega), h2]
      · rw [if_neg (by omega)]
        exact lookup_none fun e he hk => by
          have := h n e he
          rw [hk] at this
          omega

theorem rehash_lookup {size size' : Nat} {chains : Nat → List (Str × U12)} (h : Placed hash size chains) (key : Str) :
    (rehash hash size size' chains (slot hash size' key)).lookup key = (chains (slot hash size key)).lookup key := by
  unfold rehash
  rw [fold_lookup, chains_lookup h key, if_pos (show slot hash size key < size + 1 from Nat.mod_lt _ (by omega))]

theorem isMap (hash : Str → Nat) (grow : Nat → Nat) :
    IsMap (Buckets hash grow) fun t => Placed hash t.size t.chains where
  empty_good := by
    intro i e he
    cases he
  insert_good t key value h _ := by
    show Placed hash (t.add key value).size (t.add key value).chains
    unfold add
    by_cases hs : t.size < t.entries
    · rw [if_pos hs]
      exact put_placed (fold_placed _ _) _
    · rw [if_neg hs]
      exact put_placed h _
  get_empty _ := rfl
  get_insert t key value key' h _ := by
    show (t.add key value).find key' = if key' = key then some value else t.find key'
    unfold add find
    by_cases hs : t.size < t.entries
    · rw [if_pos hs]
      simp only [put_lookup, rehash_lookup h]
    · rw [if_neg hs]
      simp only [put_lookup]
  contains _ _ _ := rfl

end Buckets

end C8S
