import Verif.Proofs.Missing
import Verif.Props.Combine

/- Property C117: labels whose definition is missing. -/

namespace C8S

open Spec LayoutExample

/-- C117: if the definition of a label is taken out of an accepted program, the first instruction that names it is reported,
with the name. -/
theorem C117_removed (A B p q : List Node) (l l' : Loc) (m name : Str) (fs : List Field) (ranges : List DataRange)
    (h : assemble (A ++ .label l name :: B) = .ret (.ok ranges)) (hB : ∀ c, ¬ ConstantNext B c)
    (e : A ++ B = p ++ .instruction l' m fs :: q) (hs : .identifier name ∈ fs)
    (hp : ∀ l m fs, .instruction l m fs ∈ p → .identifier name ∉ fs) :
    assemble (A ++ B) = .ret (.error (.assemblyFailed l' (.unableToResolveLabel name))) := by
  obtain ⟨L, secs, hc, hl, hS, _⟩ := assemble_ok_iff.1 h
  obtain ⟨hn, hc'⟩ := (label_clean hB).1 hc
  obtain ⟨L', hL'⟩ := defineLabels_of_clean hc'
  have hl' := (defineLabels_ok hL').2
  refine missing_reported hc' hl' e (fun l m fs hm => sections_instructions hS l m fs ?_) (fun s hne _ => ?_) (labelsOf_none hl' hn) hs hp
  · rcases List.mem_append.1 hm with hm | hm <;> simp [hm]
  · exact Option.ext fun v => by rw [hl' s v, hl s v]; exact (label_value hB hne).symm

example : assemble ([org200] ++ .label loc "here".toList :: [db7, jpHere]) = .ret (.ok [⟨0x200, [7, 0x12, 0x00]⟩]) ∧
    assemble ([org200] ++ [db7, jpHere]) = .ret (.error (.assemblyFailed loc (.unableToResolveLabel "here".toList))) := ⟨rfl, rfl⟩

/-- C117: so without the definition the program is accepted exactly if no instruction names the label. -/
theorem C117_needed (A B : List Node) (l : Loc) (name : Str) (ranges : List DataRange)
    (h : assemble (A ++ .label l name :: B) = .ret (.ok ranges)) (hB : ∀ c, ¬ ConstantNext B c) :
    (∃ ranges', assemble (A ++ B) = .ret (.ok ranges')) ↔ ∀ l' m fs, .instruction l' m fs ∈ A ++ B → .identifier name ∉ fs := by
  constructor
  · rintro ⟨ranges', h'⟩ l' m fs hm hs
    obtain ⟨_, _, hc, _⟩ := assemble_ok_iff.1 h
    obtain ⟨L', secs', _, hl', hS', _⟩ := assemble_ok_iff.1 h'
    obtain ⟨w, hw⟩ := sections_instructions hS' l' m fs hm
    exact encodes_defined hw hs (labelsOf_none hl' ((label_clean hB).1 hc).1)
  · intro hu
    exact ⟨ranges, ((C60_unused A B l name hB hu ranges).1 h).2⟩

example : ¬ ∃ ranges', assemble ([org200] ++ [db7, jpHere]) = .ret (.ok ranges') := by
  rw [C117_needed [org200] [db7, jpHere] loc "here".toList [⟨0x200, [7, 0x12, 0x00]⟩] rfl
    (by intro c h; cases h with | intro h => cases means_unique h ((means_iff (d := .db [7])).1 rfl))]
  intro h
  exact h loc "jp".toList [.identifier "here".toList] (by simp [jpHere]) (by simp)

/-- C117: the same for a constant, whose definition is a label and an `.equ`. -/
theorem C117_constant (A B p q : List Node) (l l1 l' : Loc) (m name en : Str) (args : List Literal) (v : U12) (fs : List Field)
    (ranges : List DataRange) (hm : DirectiveMeans en args (.equ v))
    (h : assemble (A ++ .label l name :: .directive l1 en args :: B) = .ret (.ok ranges))
    (e : A ++ B = p ++ .instruction l' m fs :: q) (hs : .identifier name ∈ fs)
    (hp : ∀ l m fs, .instruction l m fs ∈ p → .identifier name ∉ fs) :
    assemble (A ++ B) = .ret (.error (.assemblyFailed l' (.unableToResolveLabel name))) := by
  have hB := constant_behind h
  obtain ⟨hn, hc', L, secs, hl, hS, _⟩ := (pair_assemble hm fun _ => hB).1 h
  obtain ⟨L', hL'⟩ := defineLabels_of_clean hc'
  have hl' := (defineLabels_ok hL').2
  refine missing_reported hc' hl' e (fun l m fs hm => sections_instructions hS l m fs hm) (fun s hne _ => ?_) (labelsOf_none hl' hn) hs hp
  exact Option.ext fun u => by rw [hl' s u, hl s u]; simp [hne]

example : assemble ([db7] ++ .label loc "here".toList :: equ5 :: [jpHere]) = .ret (.ok [⟨0, [7, 0x10, 0x05]⟩]) ∧
    assemble ([db7] ++ [jpHere]) = .ret (.error (.assemblyFailed loc (.unableToResolveLabel "here".toList))) := ⟨rfl, rfl⟩

/-- C117: without the definition of a constant the program is accepted exactly if no instruction names it. -/
theorem C117_constant_needed (A B : List Node) (l l1 : Loc) (name en : Str) (args : List Literal) (v : U12) (ranges : List DataRange)
    (hm : DirectiveMeans en args (.equ v)) (h : assemble (A ++ .label l name :: .directive l1 en args :: B) = .ret (.ok ranges)) :
    (∃ ranges', assemble (A ++ B) = .ret (.ok ranges')) ↔ ∀ l' m fs, .instruction l' m fs ∈ A ++ B → .identifier name ∉ fs := by
  have hB := constant_behind h
  constructor
  · rintro ⟨ranges', h'⟩ l' m fs hi hs
    obtain ⟨hn, _⟩ := (pair_assemble hm fun _ => hB).1 h
    obtain ⟨L', secs', _, hl', hS', _⟩ := assemble_ok_iff.1 h'
    obtain ⟨w, hw⟩ := sections_instructions hS' l' m fs hi
    exact encodes_defined hw hs (labelsOf_none hl' hn)
  · intro hu
    exact ⟨ranges, ((C60_constant A B l l1 name en args v hm (fun ⟨_, c, hc⟩ => hB c hc) hu ranges).1 h).2⟩

example : ¬ ∃ ranges', assemble ([db7] ++ [jpHere]) = .ret (.ok ranges') := by
  rw [C117_constant_needed [db7] [jpHere] loc loc "here".toList "equ".toList [.numeric 5] 5 [⟨0, [7, 0x10, 0x05]⟩] equ5_means rfl]
  intro h
  exact h loc "jp".toList [.identifier "here".toList] (by simp [jpHere]) (by simp)

/-- C117: if instead the label is defined under another name that is new, the same instruction is reported. -/
theorem C117_misspelt (A B p q : List Node) (l l' : Loc) (m name other : Str) (fs : List Field) (ranges : List DataRange)
    (h : assemble (A ++ .label l name :: B) = .ret (.ok ranges)) (hB : ∀ c, ¬ ConstantNext B c) (hne : other ≠ name)
    (ho : other ∉ labelNames (A ++ B)) (e : A ++ B = p ++ .instruction l' m fs :: q) (hs : .identifier name ∈ fs)
    (hp : ∀ l m fs, .instruction l m fs ∈ p → .identifier name ∉ fs) :
    assemble (A ++ .label l other :: B) = .ret (.error (.assemblyFailed l' (.unableToResolveLabel name))) := by
  obtain ⟨L, secs, hc, hl, hS, _⟩ := assemble_ok_iff.1 h
  obtain ⟨hn, hc'⟩ := (label_clean hB).1 hc
  have hc2 : Clean (A ++ .label l other :: B) := (label_clean (l := l) hB).2 ⟨ho, hc'⟩
  obtain ⟨L2, hL2⟩ := defineLabels_of_clean hc2
  have hl2 := (defineLabels_ok hL2).2
  have hn2 : L2.get name = none := by
    refine labelsOf_none hl2 fun hm => hn ?_
    rw [labelNames_append] at hm ⊢
    simp only [labelNames, List.mem_append, List.mem_cons] at hm ⊢
    rcases hm with hm | rfl | hm
    · exact .inl hm
    · exact (hne rfl).elim
    · exact .inr hm
  have hmem : ∀ n, n ∈ A ++ .label l other :: B → n = .label l other ∨ n ∈ A ++ .label l name :: B := by
    intro n hm
    simp only [List.mem_append, List.mem_cons] at hm ⊢
    rcases hm with hm | hm | hm
    · exact .inr (.inl hm)
    · exact .inl hm
    · exact .inr (.inr (.inr hm))
  obtain ⟨p', q', e', hp'⟩ : ∃ p' q', A ++ .label l other :: B = p' ++ .instruction l' m fs :: q' ∧
      ∀ l m fs, .instruction l m fs ∈ p' → .identifier name ∉ fs := by
    rcases split_three (C := []) (by simpa using e) with ⟨q', rfl, rfl⟩ | ⟨_, _, e', _⟩ | ⟨p', rfl, rfl⟩
    · exact ⟨p, q' ++ .label l other :: B, by simp, hp⟩
    · simp at e'
    · refine ⟨A ++ .label l other :: p', q, by simp, fun l m fs hm => hp l m fs ?_⟩
      simp only [List.mem_append, List.mem_cons, reduceCtorEq, false_or] at hm
      simpa using hm
  refine missing_reported hc2 hl2 e' (fun l3 m3 fs3 hm3 => sections_instructions hS l3 m3 fs3 ?_) (fun s h1 h2 => ?_) hn2 hs hp'
  · rcases hmem _ hm3 with h | h
    · cases h
    · exact h
  · have hso : s ≠ other := by
      rintro rfl
      refine h2 (labelsOf_none hl fun hm => ?_)
      rw [labelNames_append] at hm ho
      simp only [labelNames, List.mem_append, List.mem_cons] at hm ho
      rcases hm with hm | hm | hm
      · exact ho (.inl hm)
      · exact h1 hm
      · exact ho (.inr hm)
    exact Option.ext fun v => by
      rw [hl2 s v, hl s v]
      exact (label_value (l := l) hB hso).trans (label_value hB h1).symm

example : assemble ([org200] ++ .label loc "hear".toList :: [db7, jpHere]) =
    .ret (.error (.assemblyFailed loc (.unableToResolveLabel "here".toList))) := rfl

/-- C117: when a program is rejected because a label has no definition, adding one, wherever no label is parted from its
constant, gets this report out of the way: the program is then accepted, or the report is about that instruction or one behind
it, and not about a missing definition of the label. -/
theorem C117_supplied (A B : List Node) (l l0 : Loc) (name : Str) (hf : FourBitProgram (A ++ B))
    (h : assemble (A ++ B) = .ret (.error (.assemblyFailed l (.unableToResolveLabel name)))) (hB : ∀ c, ¬ ConstantNext B c) :
    ∃ p m fs q, A ++ B = p ++ .instruction l m fs :: q ∧ .identifier name ∈ fs ∧
      ((∃ ranges, assemble (A ++ .label l0 name :: B) = .ret (.ok ranges)) ∨
        ∃ p' l' m' fs' q' reason, A ++ B = p' ++ .instruction l' m' fs' :: q' ∧ p.length ≤ p'.length ∧
          reason ≠ .unableToResolveLabel name ∧
          assemble (A ++ .label l0 name :: B) = .ret (.error (.assemblyFailed l' reason))) := by
  rcases (assemble_error_iff hf).1 h with ⟨_, _, _, _, _, hF⟩ | ⟨L, p, l1, m, fs, q, reason, hc, hl, e, hp, hr, he⟩
  · cases hF
  · cases he
    obtain ⟨hs, hnone⟩ : .identifier name ∈ fs ∧ L.get name = none := by
      cases hr with
      | unresolved _ h1 h2 => exact ⟨h1, h2⟩
    refine ⟨p, m, fs, q, e, hs, ?_⟩
    have hn : name ∉ labelNames (A ++ B) := fun hm => labelsOf_some hc hl hm hnone
    refine supplied (C := [.label l0 name]) hf hl e hp hnone ((label_clean (l := l0) hB).2 ⟨hn, hc⟩) (by simp)
      (by simp [labelNames]) fun L' hl' s hne => Option.ext fun v => ?_
    rw [hl' s v, hl s v]
    exact label_value (l := l0) hB hne

example : assemble ([org200, db7] ++ [jpHere]) = .ret (.error (.assemblyFailed loc (.unableToResolveLabel "here".toList))) ∧
    assemble ([org200, db7] ++ .label loc "here".toList :: [jpHere]) = .ret (.ok [⟨0x200, [7, 0x12, 0x01]⟩]) := ⟨rfl, rfl⟩

/-- C117: so it is when a constant of this name is added. -/
theorem C117_supplied_constant (A B : List Node) (l l0 l1 : Loc) (name en : Str) (args : List Literal) (v : U12)
    (hf : FourBitProgram (A ++ B)) (hm : DirectiveMeans en args (.equ v))
    (h : assemble (A ++ B) = .ret (.error (.assemblyFailed l (.unableToResolveLabel name))))
    (hB : EndsWithLabel A → ∀ c, ¬ ConstantNext B c) :
    ∃ p m fs q, A ++ B = p ++ .instruction l m fs :: q ∧ .identifier name ∈ fs ∧
      ((∃ ranges, assemble (A ++ .label l0 name :: .directive l1 en args :: B) = .ret (.ok ranges)) ∨
        ∃ p' l' m' fs' q' reason, A ++ B = p' ++ .instruction l' m' fs' :: q' ∧ p.length ≤ p'.length ∧
          reason ≠ .unableToResolveLabel name ∧
          assemble (A ++ .label l0 name :: .directive l1 en args :: B) = .ret (.error (.assemblyFailed l' reason))) := by
  rcases (assemble_error_iff hf).1 h with ⟨_, _, _, _, _, hF⟩ | ⟨L, p, l2, m, fs, q, reason, hc, hl, e, hp, hr, he⟩
  · cases hF
  · cases he
    obtain ⟨hs, hnone⟩ : .identifier name ∈ fs ∧ L.get name = none := by
      cases hr with
      | unresolved _ h1 h2 => exact ⟨h1, h2⟩
    refine ⟨p, m, fs, q, e, hs, ?_⟩
    have hn : name ∉ labelNames (A ++ B) := fun hm => labelsOf_some hc hl hm hnone
    refine supplied (C := [.label l0 name, .directive l1 en args]) hf hl e hp hnone ((pair_clean hm hB).2 ⟨hn, hc⟩) (by simp)
      (by simp [labelNames]) fun L' hl' s hne => Option.ext fun u => ?_
    rw [hl' s u, hl s u]
    exact (pair_labelValue hm hB).trans (by simp [hne])

example : assemble ([org200, db7] ++ [jpHere]) = .ret (.error (.assemblyFailed loc (.unableToResolveLabel "here".toList))) ∧
    assemble ([org200, db7] ++ .label loc "here".toList :: equ5 :: [jpHere]) = .ret (.ok [⟨0x200, [7, 0x10, 0x05]⟩]) :=
  ⟨rfl, rfl⟩

end C8S
