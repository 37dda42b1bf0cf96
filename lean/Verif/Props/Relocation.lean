import Verif.Proofs.Relocate
import Verif.Props.Layout

/- Properties on moving parts of a program: C35 and C52. -/

namespace C8S

open Spec LayoutExample

/-- C35: a constant definition (a label directly followed by `.equ`) can be moved between any two places of a
program without changing what is assembled. A place between a label and the constant defined for it is not between
statements, and excluded. -/
theorem C35_move (A B A' B' : List Node) (l l' : Loc) (name en : Str) (args : List Literal) (v : U12)
    (ranges : List DataRange) (hm : DirectiveMeans en args (.equ v)) (hbase : A ++ B = A' ++ B')
    (hplace : ¬ (EndsWithLabel A ∧ ∃ c, ConstantNext B c)) (hplace' : ¬ (EndsWithLabel A' ∧ ∃ c, ConstantNext B' c)) :
    assemble (A ++ [.label l name, .directive l' en args] ++ B) = .ret (.ok ranges) ↔
    assemble (A' ++ [.label l name, .directive l' en args] ++ B') = .ret (.ok ranges) := by
  have h : EndsWithLabel A → ∀ c, ¬ ConstantNext B c := fun h c hc => hplace ⟨h, c, hc⟩
  have h' : EndsWithLabel A' → ∀ c, ¬ ConstantNext B' c := fun h c hc => hplace' ⟨h, c, hc⟩
  rw [List.append_assoc, List.append_assoc, pair_assemble hm h, pair_assemble hm h', hbase]

example : assemble [here, equ5, org200, jpHere, db7] = .ret (.ok [⟨0x200, [0x10, 0x05, 7]⟩]) := by
  refine (C35_move [org200, jpHere] [db7] [] [org200, jpHere, db7] loc loc "here".toList "equ".toList [.numeric 5] 5 _ equ5_means
    rfl ?_ ?_).1 rfl
  · rintro ⟨_, c, hc⟩
    cases hc with
    | intro hc => cases means_unique db7_means hc
  · rintro ⟨⟨p, l, n, h⟩, _⟩
    simp at h

/-- C35: a constant definition that nothing refers to emits nothing: adding it to an assembled program changes
nothing in the output. -/
theorem C35_unused (A B : List Node) (l l' : Loc) (name en : Str) (args : List Literal) (v : U12)
    (ranges : List DataRange) (hm : DirectiveMeans en args (.equ v))
    (hplace : ¬ (EndsWithLabel A ∧ ∃ c, ConstantNext B c)) (hname : name ∉ labelNames (A ++ B))
    (h : assemble (A ++ B) = .ret (.ok ranges)) :
    assemble (A ++ [.label l name, .directive l' en args] ++ B) = .ret (.ok ranges) := by
  obtain ⟨labels, secs, hc, hl, hs, rfl⟩ := assemble_ok_iff.1 h
  rw [List.append_assoc, pair_assemble hm fun h c hc => hplace ⟨h, c, hc⟩]
  have hext : ∀ nm u, LabelMap.get ((name, v) :: labels) nm = some u ↔ (nm = name ∧ u = v) ∨ LabelValue (A ++ B) nm u := by
    intro nm u
    rw [get_cons]
    split
    · rename_i e
      subst e
      constructor
      · intro h
        exact .inl ⟨rfl, by simpa using h.symm⟩
      · rintro (⟨_, rfl⟩ | h)
        · rfl
        · obtain ⟨p, loc, q, e, _⟩ := labelValue_iff.1 h
          exact (hname (mem_labelNames.2 ⟨loc, by rw [e]; simp⟩)).elim
    · rename_i e
      rw [hl nm u]
      simp [e]
  refine ⟨hname, hc, (name, v) :: labels, secs, hext, ?_, rfl⟩
  refine sections_extend (fun nm u hu => ?_) hs
  exact (hext nm u).2 (.inr ((hl nm u).1 hu))

example : assemble ([org200, jpHere] ++ [here, equ5] ++ [db7]) = .ret (.ok [⟨0x200, [0x10, 0x05, 7]⟩]) ∧
    assemble ([] ++ [here, equ5] ++ [org200, jpHere, db7]) = .ret (.ok [⟨0x200, [0x10, 0x05, 7]⟩]) := ⟨rfl, rfl⟩

example : DirectiveMeans "equ".toList [.numeric 5] (.equ 5) ∧
    ¬ (EndsWithLabel [org200, jpHere] ∧ ∃ c, ConstantNext [db7] c) := by
  refine ⟨equ5_means, ?_⟩
  rintro ⟨_, c, hc⟩
  cases hc with
  | intro hc => cases means_unique db7_means hc

/-- C52: reordering complete sections of a program keeps its success, and reorders its ranges. -/
theorem C52_ranges (sections sections' : List (List Node)) (hp : sections.Perm sections')
    (ho : ∀ s ∈ sections, StartsWithOrg s) (ranges : List DataRange)
    (h : assemble sections.flatten = .ret (.ok ranges)) :
    ∃ ranges', assemble sections'.flatten = .ret (.ok ranges') ∧ ranges.Perm ranges' ∧
      (image ranges).Perm (image ranges') := by
  obtain ⟨ranges', h1, h2⟩ := assemble_perm hp ho h
  exact ⟨ranges', h1, h2, h2.flatMap_right _⟩

example : assemble [[org200, db7], [.directive loc "org".toList [.numeric 0x300], db7]].flatten =
      .ret (.ok [⟨0x200, [7]⟩, ⟨0x300, [7]⟩]) ∧
    assemble [[.directive loc "org".toList [.numeric 0x300], db7], [org200, db7]].flatten =
      .ret (.ok [⟨0x300, [7]⟩, ⟨0x200, [7]⟩]) := ⟨rfl, rfl⟩

/-- C52: and its label values. -/
theorem C52_labels (sections sections' : List (List Node)) (hp : sections.Perm sections')
    (ho : ∀ s ∈ sections, StartsWithOrg s) (labels : LabelMap) (h : defineLabels sections.flatten = .ok labels) :
    ∃ labels', defineLabels sections'.flatten = .ok labels' ∧ ∀ name, labels'.get name = labels.get name := by
  obtain ⟨hc, hl⟩ := defineLabels_ok h
  obtain ⟨labels', h'⟩ := defineLabels_of_clean (clean_perm hp ho hc)
  refine ⟨labels', h', labelsOf_congr (defineLabels_ok h').2 fun nm u => ?_⟩
  rw [hl nm u]
  exact labelValue_perm hp ho hc

example : defineLabels [[org200, here, db7], [.directive loc "org".toList [.numeric 0x300], limit, db7]].flatten =
      .ok [("limit".toList, 0x300), ("here".toList, 0x200)] ∧
    defineLabels [[.directive loc "org".toList [.numeric 0x300], limit, db7], [org200, here, db7]].flatten =
      .ok [("here".toList, 0x200), ("limit".toList, 0x300)] := ⟨rfl, rfl⟩

/-- C52: the content of memory is the same when no address receives two bytes: each address holds the same byte. -/
theorem C52_memory (sections sections' : List (List Node)) (hp : sections.Perm sections')
    (ho : ∀ s ∈ sections, StartsWithOrg s) (ranges : List DataRange)
    (h : assemble sections.flatten = .ret (.ok ranges)) :
    ∃ ranges', assemble sections'.flatten = .ret (.ok ranges') ∧
      ∀ a b, (a, b) ∈ image ranges' ↔ (a, b) ∈ image ranges := by
  obtain ⟨ranges', h1, _, h2⟩ := C52_ranges sections sections' hp ho ranges h
  exact ⟨ranges', h1, fun a b => h2.mem_iff.symm⟩

example : [[org200, jpHere], [.directive loc "org".toList [.numeric 0x300], here, db7]].Perm
      [[.directive loc "org".toList [.numeric 0x300], here, db7], [org200, jpHere]] ∧
    (∀ s ∈ [[org200, jpHere], [.directive loc "org".toList [.numeric 0x300], here, db7]], StartsWithOrg s) ∧
    assemble [[org200, jpHere], [.directive loc "org".toList [.numeric 0x300], here, db7]].flatten
      = .ret (.ok [⟨0x200, [0x13, 0x00]⟩, ⟨0x300, [7]⟩]) := by
  refine ⟨.swap _ _ _, ?_, rfl⟩
  intro s hs
  simp only [List.mem_cons, List.not_mem_nil, or_false] at hs
  rcases hs with rfl | rfl
  · exact ⟨_, _, _, _, _, org200_means, rfl⟩
  · exact ⟨_, _, _, 0x300, _, means_iff.1 rfl, rfl⟩

end C8S
