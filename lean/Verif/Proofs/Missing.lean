import Verif.Proofs.Combine
import Verif.Proofs.Insert

/- Lemmas on labels without a definition. -/

namespace C8S

open Spec

theorem fits_shape {L : LabelMap} {v : Vars} {s : Slot} {f : Field} (h : Fits L v s f) : Shape s f := by
  cases h with
  | vx _ _ => exact .vx
  | vy _ _ => exact .vy
  | v0 => exact .v0
  | nn h _ =>
    generalize v.kk = k at h
    cases h with
    | literal _ => exact .nnLit
    | label _ => exact .nnId
  | n h _ =>
    generalize v.n = k at h
    cases h with
    | literal _ => exact .nLit
    | label _ => exact .nId
  | addr h =>
    generalize v.nnn = k at h
    cases h with
    | literal _ => exact .addrLit
    | label _ => exact .addrId
  | i => exact .i
  | indI => exact .indI
  | dt => exact .dt
  | st => exact .st
  | k => exact .k
  | f => exact .f
  | b => exact .b

theorem encodes_selects {L : LabelMap} {m : Str} {fs : List Field} {w : Nat} (h : Encodes L m fs w) : ∃ row, Selects row m fs := by
  obtain ⟨row, hr, v, hm, hf, _⟩ := h
  refine ⟨row, hr, hm, ?_⟩
  generalize row.slots = ss at hf
  induction hf with
  | nil => exact .nil
  | cons h _ ih => exact .cons (fits_shape h) ih

theorem encodes_fourBit {L : LabelMap} {m : Str} {fs : List Field} {w : Nat} (h : Encodes L m fs w) : FourBitRegisters fs := by
  obtain ⟨row, _, v, _, hf, _⟩ := h
  generalize row.slots = ss at hf
  induction hf with
  | nil => intro r hr; cases hr
  | cons h _ ih =>
    intro r hr
    rcases List.mem_cons.1 hr with rfl | hr
    · cases h with
      | vx h1 h2 => omega
      | vy h1 h2 => omega
      | v0 => decide
      | nn h _ => cases h
      | n h _ => cases h
      | addr h => cases h
    · exact ih r hr

/-- Every label of an instruction that is encoded has a value. -/
theorem encodes_defined {L : LabelMap} {m s : Str} {fs : List Field} {w : Nat} (h : Encodes L m fs w) (hs : .identifier s ∈ fs) :
    L.get s ≠ none := by
  intro hn
  obtain ⟨row, hr⟩ := encodes_selects h
  exact not_encodes_and_fails h (.unresolved hr hs hn)

/-- Without a definition of `name`, the first instruction that names it is reported. -/
theorem missing_reported {N p q : List Node} {l : Loc} {m name : Str} {fs : List Field} {L L' : LabelMap} (hc : Clean N)
    (hl' : LabelsOf N L') (e : N = p ++ .instruction l m fs :: q) (hL : ∀ l m fs, .instruction l m fs ∈ N → ∃ w, Encodes L m fs w)
    (hsame : ∀ s, s ≠ name → L.get s ≠ none → L'.get s = L.get s) (hnone : L'.get name = none) (hs : .identifier name ∈ fs)
    (hp : ∀ l m fs, .instruction l m fs ∈ p → .identifier name ∉ fs) :
    assemble N = .ret (.error (.assemblyFailed l (.unableToResolveLabel name))) := by
  have hfour : FourBitProgram N := fun l m fs hm => by
    obtain ⟨w, hw⟩ := hL l m fs hm
    exact encodes_fourBit hw
  obtain ⟨w, hw⟩ := hL l m fs (by rw [e]; simp)
  obtain ⟨row, hr⟩ := encodes_selects hw
  refine (assemble_error_iff hfour).2 (.inr ⟨L', p, l, m, fs, q, _, hc, hl', e, ?_, .unresolved hr hs hnone, rfl⟩)
  intro l1 m1 fs1 hm
  obtain ⟨w1, hw1⟩ := hL l1 m1 fs1 (by rw [e]; simp [hm])
  exact ⟨w1, encodes_agree (fun s hs1 => hsame s (fun es => hp l1 m1 fs1 hm (es ▸ hs1)) (encodes_defined hw1 hs1)) hw1⟩

theorem labelsOf_none {N : List Node} {L : LabelMap} (hl : LabelsOf N L) {name : Str} (h : name ∉ labelNames N) : L.get name = none := by
  cases hg : L.get name with
  | none => rfl
  | some v =>
    obtain ⟨p, loc, q, rfl, _⟩ := labelValue_iff.1 ((hl name v).1 hg)
    exact absurd (mem_labelNames.2 ⟨loc, by simp⟩) h

theorem labelsOf_some {N : List Node} {L : LabelMap} (hc : Clean N) (hl : LabelsOf N L) {name : Str} (h : name ∈ labelNames N) :
    L.get name ≠ none := by
  intro hg
  obtain ⟨loc, hm⟩ := mem_labelNames.1 h
  obtain ⟨p, q, rfl⟩ := List.append_of_mem hm
  obtain ⟨hd, _, _, hf⟩ := clean_iff.1 hc
  by_cases hq : ∃ c, ConstantNext q c
  · obtain ⟨c, hq⟩ := hq
    rw [(hl name c).2 (labelValue_iff.2 ⟨p, loc, q, rfl, .inl hq⟩)] at hg
    cases hg
  · obtain ⟨a, ha⟩ := reaches_exists (nodes := p) (fun l s xs hm => hd l s xs (by simp [hm])) 0
    have fa := hf p _ a rfl ha
    have e1 : (BitVec.ofNat 12 a).toNat = a := by rw [BitVec.toNat_ofNat, Nat.mod_eq_of_lt (by omega)]
    rw [(hl name (BitVec.ofNat 12 a)).2 (labelValue_iff.2 ⟨p, loc, q, rfl, .inr ⟨fun c hc => hq ⟨c, hc⟩, by rw [e1]; exact ha⟩⟩)] at hg
    cases hg

/-- No constant stands behind the definition of a constant. -/
theorem constant_behind {A B : List Node} {l l1 : Loc} {name en : Str} {args : List Literal} {ranges : List DataRange}
    (h : assemble (A ++ .label l name :: .directive l1 en args :: B) = .ret (.ok ranges)) (c : U12) : ¬ ConstantNext B c := by
  intro hc
  obtain ⟨_, _, hcl, _⟩ := assemble_ok_iff.1 h
  obtain ⟨r, l2, nm, er⟩ := (clean_iff.1 hcl).2.1 (A ++ [.label l name, .directive l1 en args]) B c (by simp) hc
  have := congrArg List.getLast? er
  simp at this

/-- A definition of a label, put into a program that is rejected for want of it. -/
theorem supplied {A B C p q : List Node} {l : Loc} {m name : Str} {fs : List Field} {L : LabelMap} (hf : FourBitProgram (A ++ B))
    (hl : LabelsOf (A ++ B) L) (e : A ++ B = p ++ .instruction l m fs :: q)
    (hp : ∀ l m f, .instruction l m f ∈ p → ∃ w, Encodes L m f w) (hnone : L.get name = none) (hc' : Clean (A ++ (C ++ B)))
    (hC : ∀ l m f, .instruction l m f ∉ C) (hname : name ∈ labelNames C)
    (hsame : ∀ L', LabelsOf (A ++ (C ++ B)) L' → ∀ s, s ≠ name → L'.get s = L.get s) :
    (∃ ranges, assemble (A ++ (C ++ B)) = .ret (.ok ranges)) ∨
      ∃ p' l' m' fs' q' reason, A ++ B = p' ++ .instruction l' m' fs' :: q' ∧ p.length ≤ p'.length ∧
        reason ≠ .unableToResolveLabel name ∧ assemble (A ++ (C ++ B)) = .ret (.error (.assemblyFailed l' reason)) := by
  have hf' : FourBitProgram (A ++ (C ++ B)) := by
    intro l m fs hm
    refine hf l m fs ?_
    simp only [List.mem_append] at hm ⊢
    rcases hm with hm | hm | hm
    · exact .inl hm
    · exact (hC _ _ _ hm).elim
    · exact .inr hm
  cases ha : assemble (A ++ (C ++ B)) with
  | panic => exact (assemble_no_panic hf' ha).elim
  | ret r =>
    cases r with
    | ok ranges => exact .inl ⟨ranges, rfl⟩
    | error e2 =>
      refine .inr ?_
      rcases (assemble_error_iff hf').1 ha with ⟨pre, n, post, hF1, _, hF2⟩ | ⟨L', p2, l2, m2, fs2, q2, r2, _, hl', e', hp2, hr2, rfl⟩
      · exact (hc' pre n post hF1 _ hF2).elim
      · have hsome : L'.get name ≠ none := labelsOf_some hc' hl' (by simp [labelNames_append, hname])
        have hne : r2 ≠ .unableToResolveLabel name := by
          rintro rfl
          cases hr2 with
          | unresolved _ _ h2 => exact hsome h2
        have hno : .instruction l2 m2 fs2 ∉ p := by
          intro hm
          obtain ⟨w, hw⟩ := hp _ _ _ hm
          refine not_encodes_and_fails (encodes_agree (fun s hs1 => hsame L' hl' s ?_) hw) hr2
          rintro rfl
          exact encodes_defined hw hs1 hnone
        obtain ⟨p', q', e2⟩ : ∃ p' q', A ++ B = p' ++ .instruction l2 m2 fs2 :: q' := by
          rcases split_three e' with ⟨q', rfl, rfl⟩ | ⟨p3, q3, e3, _⟩ | ⟨p', rfl, rfl⟩
          · exact ⟨p2, q' ++ B, by simp⟩
          · exact (hC l2 m2 fs2 (by rw [e3]; simp)).elim
          · exact ⟨A ++ p', q2, by simp⟩
        refine ⟨p', l2, m2, fs2, q', r2, e2, ?_, hne, rfl⟩
        refine Nat.le_of_not_lt fun hlt => hno ?_
        have h1 : (p ++ Node.instruction l m fs :: q)[p'.length]? = some (.instruction l2 m2 fs2) := by
          rw [← e, e2]
          simp
        rw [List.getElem?_append_left hlt] at h1
        exact List.mem_of_getElem? h1

end C8S
