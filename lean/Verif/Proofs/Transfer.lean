import Verif.Spec.Transfer
import Verif.Proofs.Table
import Verif.Proofs.Combine
import Verif.Proofs.Profile
import Verif.Props.Adjust

/- Lemmas for C123. -/

namespace C8S

open Spec

theorem emitLoop_labels {L L' : LabelMap} (h : ∀ s, L.get s = L'.get s) (nodes : List Node) (current : DataRange)
    (ranges : List DataRange) : emitLoop nodes L current ranges = emitLoop nodes L' current ranges :=
  (Table.emitLoop_eq (M := LabelMap) (t := L) (m := L) (fun _ => rfl) nodes current ranges).symm.trans
    (Table.emitLoop_eq (M := LabelMap) (t := L) (m := L') h nodes current ranges)

/-- Statements without bytes can be left out in the second pass. -/
theorem emitLoop_skip {X : List Node} {L : LabelMap}
    (hX : ∀ ns current ranges, InMemory current → emitLoop (X ++ ns) L current ranges = emitLoop ns L current ranges)
    (A B : List Node) : ∀ current ranges, InMemory current →
      emitLoop (A ++ (X ++ B)) L current ranges = emitLoop (A ++ B) L current ranges := by
  induction A with
  | nil => exact hX B
  | cons n A ih =>
    intro current ranges hc
    cases n with
    | label l name => exact ih _ _ hc
    | directive l name args =>
      simp only [List.cons_append, emitLoop]
      split
      · rfl
      · exact ih _ _ (new_inMemory _)
      · split
        · rfl
        · rename_i ha
          exact ih _ _ (appendAsserted_inMemory hc ha)
    | instruction l m fs =>
      simp only [List.cons_append, emitLoop]
      split
      · rfl
      · split
        · rfl
        · split
          · rfl
          · rename_i ha
            exact ih _ _ (appendAsserted_inMemory hc ha)

section

variable {N M N' : List Node} {name : Str} {v v' : U12}

theorem defines_emit (h : Defines N M name v) (L : LabelMap) : emitDataRanges N L = emitDataRanges M L := by
  cases h with
  | @address A B l name v hB hr =>
    exact emitLoop_skip (X := [.label l name]) (fun _ _ _ _ => rfl) A B _ _ (new_inMemory 0)
  | @constant A B l l' name en args v hm hp =>
    refine emitLoop_skip (X := [.label l name, .directive l' en args]) (fun ns current ranges hc => ?_) A B _ _ (new_inMemory 0)
    simp only [List.cons_append, List.nil_append, emitLoop, means_iff.2 hm]
    rw [appendAsserted_eq (by simpa [Directive.intoVec, InMemory, memorySize] using hc)]
    simp [Directive.intoVec]

theorem defines_clean (h : Defines N M name v) : Clean N ↔ name ∉ labelNames M ∧ Clean M := by
  cases h with
  | address hB hr => exact label_clean hB
  | constant hm hp => exact pair_clean hm fun ha c hc => hp ⟨ha, c, hc⟩

theorem defines_labels (h : Defines N M name v) (hn : name ∉ labelNames M) {L : LabelMap} (hl : LabelsOf N L) (nm : Str) (u : U12) :
    L.get nm = some u ↔ (nm = name ∧ u = v) ∨ LabelValue M nm u := by
  rw [hl nm u]
  cases h with
  | constant hm hp => exact pair_labelValue hm fun ha c hc => hp ⟨ha, c, hc⟩
  | @address A B l name v hB hr =>
    by_cases e : nm = name
    · subst e
      have hno : ¬ LabelValue (A ++ B) nm u := by
        intro hv
        obtain ⟨p, loc, q, e, _⟩ := labelValue_iff.1 hv
        rw [e] at hn
        exact hn (mem_labelNames.2 ⟨loc, by simp⟩)
      simp only [true_and, hno, or_false]
      constructor
      · intro hv
        obtain ⟨p, loc, q, e, hv⟩ := labelValue_iff.1 hv
        rcases split_three (C := [Node.label l nm]) (by simpa using e) with ⟨q', rfl, rfl⟩ | ⟨p', q', e', rfl, rfl⟩ | ⟨p', rfl, rfl⟩
        · exact (hn (mem_labelNames.2 ⟨loc, by simp⟩)).elim
        · have hp' : p' = [] ∧ q' = [] := by
            rcases p' with _ | ⟨x, p'⟩
            · simp at e'
              exact ⟨rfl, e'.2⟩
            · simp at e'
          obtain ⟨rfl, rfl⟩ := hp'
          rcases hv with hv | ⟨_, hv⟩
          · exact (hB _ (by simpa using hv)).elim
          · exact BitVec.eq_of_toNat_eq (reaches_unique (by simpa using hv) hr)
        · exact (hn (mem_labelNames.2 ⟨loc, by simp⟩)).elim
      · rintro rfl
        exact .address hB hr
    · simp only [e, false_and, false_or]
      exact label_value hB e

/-- The label, with its value given by a constant in front of everything. -/
def inFront (name : Str) (v : U12) (M : List Node) : List Node :=
  .label ⟨[], 0, 0, 0⟩ name :: .directive ⟨[], 0, 0, 0⟩ "equ".toList [.numeric v.toNat] :: M

theorem inFront_means (v : U12) : DirectiveMeans "equ".toList [.numeric v.toNat] (.equ v) := .equ v (by decide)

theorem inFront_constant : WithConstant (inFront name v M) [] name v M := ⟨_, _, _, _, rfl, inFront_means v⟩

theorem inFront_defines : Defines (inFront name v M) M name v :=
  .constant (A := []) (inFront_means v) (by rintro ⟨⟨p, _, _, e⟩, _⟩; simp at e)

/-- Definitions with the same value can replace each other. -/
theorem defines_assemble (h : Defines N M name v) (h' : Defines N' M name v) (hc : Clean N) : assemble N' = assemble N := by
  obtain ⟨hn, hm⟩ := (defines_clean h).1 hc
  have hc' := (defines_clean h').2 ⟨hn, hm⟩
  obtain ⟨L, hL⟩ := defineLabels_of_clean hc
  obtain ⟨L', hL'⟩ := defineLabels_of_clean hc'
  unfold assemble
  rw [hL, hL']
  simp only
  rw [defines_emit h, defines_emit h']
  refine emitLoop_labels (fun s => Option.ext fun u => ?_) _ _ _
  rw [defines_labels h hn (defineLabels_ok hL).2, defines_labels h' hn (defineLabels_ok hL').2]

end

end C8S
