import Verif.Spec.Rebase
import Verif.Proofs.Insert
import Verif.Proofs.Provenance

/- Lemmas on a section that is given another address. -/

namespace C8S

open Spec

section
variable {A B C : List Node} {o o' : Node} {k k' : U12}

theorem Spec.Rebased.symm (h : Rebased A o o' B C k k') : Rebased A o' o B C k' k := ⟨h.new, h.old, h.section_end, h.remainder⟩

theorem Spec.Rebased.starts (h : Rebased A o o' B C k k') (D : List Node) : StartsWithOrg (o :: D) := by
  obtain ⟨l, s, xs, rfl, hk⟩ := h.old
  exact ⟨l, s, xs, k, D, hk, rfl⟩

theorem Spec.Rebased.reaches (h : Rebased A o o' B C k k') {p : List Node} {a c : Nat} :
    Reaches (o :: p) a c ↔ Reaches p k.toNat c := by
  obtain ⟨l, s, xs, rfl, hk⟩ := h.old
  exact moved_reaches hk

theorem Spec.Rebased.clean (h : Rebased A o o' B C k k') (hc : Clean (A ++ o :: (B ++ C))) :
    Clean (A ++ o' :: (B ++ C)) ↔ ∀ e, Reaches B k'.toNat e → e ≤ 0xFFF := by
  obtain ⟨l, s, xs, rfl, hk⟩ := h.old
  obtain ⟨l', s', xs', rfl, hk'⟩ := h.new
  have hb : Boundary C := h.remainder
  rw [clean_boundary (.inr (h.starts _)), ← List.cons_append, clean_boundary hb] at hc
  rw [clean_boundary (.inr (h.symm.starts _)), ← List.cons_append, clean_boundary hb]
  obtain ⟨h1, ⟨h2, h3, h4⟩, h5⟩ := hc
  constructor
  · rintro ⟨_, ⟨g2, _, _⟩, _⟩ e he
    exact (clean_iff.1 g2).2.2.2 _ [] e (by simp) (h.symm.reaches.2 he)
  · intro hf
    refine ⟨h1, ⟨moved_clean hk' h.section_end hf h2, h3, ?_⟩, ?_⟩
    · simpa [labelNames] using h4
    · simpa [labelNames_append, labelNames] using h5

theorem Spec.Rebased.labels (h : Rebased A o o' B C k k') {L L' : LabelMap} (hc : Clean (A ++ o :: (B ++ C)))
    (hc' : Clean (A ++ o' :: (B ++ C))) (hl : LabelsOf (A ++ o :: (B ++ C)) L) (hl' : LabelsOf (A ++ o' :: (B ++ C)) L') (nm : Str) :
    (AddressLabel B nm → ∃ v v' : U12, L.get nm = some v ∧ L'.get nm = some v' ∧ v.toNat + k'.toNat = v'.toNat + k.toNat) ∧
    (¬ AddressLabel B nm → L'.get nm = L.get nm) := by
  have hb : Boundary C := h.remainder
  have hval : ∀ {o o' : Node} {k k' : U12}, Rebased A o o' B C k k' → Clean (A ++ o :: (B ++ C)) → ∀ v,
      LabelValue (A ++ o :: (B ++ C)) nm v ↔ LabelValue A nm v ∨ (∃ p loc q, B = p ++ .label loc nm :: q ∧
        (ConstantNext q v ∨ (∀ c, ¬ ConstantNext q c) ∧ Reaches p k.toNat v.toNat)) ∨ LabelValue C nm v := by
    intro o o' k k' h hc v
    have hd := (clean_iff.1 hc).1
    rw [labelValue_boundary (fun l s xs hm => hd l s xs (by simp [hm])) (.inr (h.starts _)), ← List.cons_append,
      labelValue_boundary (fun l s xs hm => hd l s xs (by simp at hm; rcases hm with hm | hm <;> simp [hm])) hb]
    obtain ⟨l, s, xs, rfl, hk⟩ := h.old
    rw [moved_value hk]
  constructor
  · rintro ⟨p, l, q, e, hq⟩
    have hd := (clean_iff.1 hc).1
    obtain ⟨a, ha⟩ := reaches_exists (nodes := p) (fun l s xs hm => hd l s xs (by rw [e]; simp [hm])) k.toNat
    have hBo : NoOrg (p ++ .label l nm :: q) := e ▸ h.section_end
    obtain ⟨j, rfl, hj⟩ := noOrg_reaches (noOrg_left hBo) ha
    have fit : ∀ {o o' : Node} {k k' : U12}, Rebased A o o' B C k k' → Clean (A ++ o :: (B ++ C)) → k.toNat + j ≤ 0xFFF := by
      intro o o' k k' h hc
      have hb0 := (clean_boundary (.inr (h.starts _))).1 hc
      refine (clean_iff.1 hb0.2.1).2.2.2 (o :: p) (.label l nm :: q ++ C) _ (by rw [e]; simp) (h.reaches.2 (hj _))
    have f1 := fit h hc
    have f2 := fit h.symm hc'
    have e1 : (BitVec.ofNat 12 (k.toNat + j)).toNat = k.toNat + j := by
      rw [BitVec.toNat_ofNat, Nat.mod_eq_of_lt (by omega)]
    have e2 : (BitVec.ofNat 12 (k'.toNat + j)).toNat = k'.toNat + j := by
      rw [BitVec.toNat_ofNat, Nat.mod_eq_of_lt (by omega)]
    refine ⟨BitVec.ofNat 12 (k.toNat + j), BitVec.ofNat 12 (k'.toNat + j), ?_, ?_, by omega⟩
    · rw [hl, hval h hc]
      exact .inr (.inl ⟨p, l, q, e, .inr ⟨hq, by rw [e1]; exact hj _⟩⟩)
    · rw [hl', hval h.symm hc']
      exact .inr (.inl ⟨p, l, q, e, .inr ⟨hq, by rw [e2]; exact hj _⟩⟩)
  · intro hna
    have hiff : ∀ v, L'.get nm = some v ↔ L.get nm = some v := by
      intro v
      rw [hl, hl', hval h hc, hval h.symm hc']
      constructor
      all_goals
        rintro (g | ⟨p, loc, q, e, g⟩ | g)
        · exact .inl g
        · rcases g with g | ⟨g, _⟩
          · exact .inr (.inl ⟨p, loc, q, e, .inl g⟩)
          · exact (hna ⟨p, loc, q, e, g⟩).elim
        · exact .inr (.inr g)
    cases hg : L.get nm with
    | some v => exact (hiff v).2 hg
    | none =>
      cases hg' : L'.get nm with
      | none => rfl
      | some v' => rw [(hiff v').1 hg'] at hg; cases hg

/-- The statement that emits bytes, in the other program. -/
theorem Spec.Rebased.place (h : Rebased A o o' B C k k') {pre post : List Node} {n : Node} {a : Nat} {L : LabelMap}
    {bytes : List U8} (e : A ++ o :: (B ++ C) = pre ++ n :: post) (hr : Reaches pre 0 a) (hn : Emits L n bytes) :
    ∃ pre' post' a', A ++ o' :: (B ++ C) = pre' ++ n :: post' ∧ pre'.length = pre.length ∧ Reaches pre' 0 a' ∧
      GoesAlong A B k k' pre.length a a' := by
  rw [show A ++ o :: (B ++ C) = A ++ ((o :: B) ++ C) by simp] at e
  rcases split_three e with ⟨q', rfl, rfl⟩ | ⟨p', q', e', rfl, rfl⟩ | ⟨p', rfl, rfl⟩
  · refine ⟨pre, q' ++ o' :: (B ++ C), a, by simp, rfl, hr, ?_⟩
    unfold GoesAlong WithinSection
    simp
    omega
  · cases p' with
    | nil =>
      simp only [List.nil_append, List.cons.injEq] at e'
      obtain ⟨rfl, _⟩ := e'
      obtain ⟨l, s, xs, rfl, hk⟩ := h.old
      exact (emits_not_org hn hk).elim
    | cons x p =>
      simp only [List.cons_append, List.cons.injEq] at e'
      obtain ⟨rfl, hB⟩ := e'
      obtain ⟨c, hA, hp⟩ := reaches_append.1 hr
      rw [h.reaches] at hp
      obtain ⟨j, rfl, hj⟩ := noOrg_reaches (noOrg_left (hB ▸ h.section_end)) hp
      refine ⟨A ++ o' :: p, q' ++ C, k'.toNat + j, by rw [hB]; simp, by simp, reaches_append.2 ⟨c, hA, h.symm.reaches.2 (hj _)⟩, ?_⟩
      rw [hB]
      unfold GoesAlong WithinSection
      simp only [List.length_append, List.length_cons]
      omega
  · obtain ⟨c, hA, hp⟩ := reaches_append.1 hr
    rw [List.cons_append, h.reaches] at hp
    obtain ⟨d, hB, hp⟩ := reaches_append.1 hp
    have hp' : StartsWithOrg p' := by
      have hC : Boundary (p' ++ n :: post) := h.remainder
      rcases hC with hC | ⟨l, s, xs, v, body, hv, hC⟩
      · simp at hC
      · cases p' with
        | nil =>
          simp only [List.nil_append, List.cons.injEq] at hC
          obtain ⟨rfl, _⟩ := hC
          exact (emits_not_org hn hv).elim
        | cons x p' =>
          simp only [List.cons_append, List.cons.injEq] at hC
          obtain ⟨rfl, _⟩ := hC
          exact ⟨l, s, xs, v, p', hv, rfl⟩
    obtain ⟨j, rfl, hj⟩ := noOrg_reaches h.section_end hB
    refine ⟨A ++ o' :: (B ++ p'), post, a, by simp, by simp, ?_, ?_⟩
    · exact reaches_append.2 ⟨c, hA, h.symm.reaches.2 (reaches_append.2 ⟨_, hj _, (reaches_org hp').1 hp⟩)⟩
    · unfold GoesAlong WithinSection
      obtain ⟨_, _, _, _, _, _, rfl⟩ := hp'
      refine ⟨fun hw => ?_, fun _ => rfl⟩
      simp only [List.length_append, List.length_cons] at hw
      omega

end

/-- Where the bytes are does not depend on the labels. -/
theorem writes_addresses {L L' : LabelMap} {ns : List Node} {a : Nat} {ws ws' : List (Nat × U8)}
    (h : Writes L ns a ws) (h' : Writes L' ns a ws') : ws.map Prod.fst = ws'.map Prod.fst := by
  induction h generalizing ws' with
  | nil => cases h'; rfl
  | org hd _ ih =>
    cases h' with
    | org hd' h' =>
      cases means_unique hd hd'
      exact ih h'
    | emit he _ => exact (emits_not_org he hd).elim
  | @emit n bytes a ns ws he _ ih =>
    cases h' with
    | org hd' _ => exact (emits_not_org he hd').elim
    | @emit _ bytes' _ _ ws' he' h' =>
      have hlen : bytes.length = bytes'.length := by
        have := moves_unique (emits_moves he a) (emits_moves he' a)
        omega
      rw [← hlen] at h'
      rw [List.map_append, List.map_append, placeAt_addresses, placeAt_addresses, hlen, ih h']

end C8S
