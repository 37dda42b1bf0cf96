import Verif.Spec.Swap
import Verif.Proofs.Rebase

/- Lemmas on two neighbouring pieces of a program that change places. -/

namespace C8S

open Spec

theorem constants_cut {s t : List Node} (ht : ∀ c, ¬ ConstantNext t c) : ConstantsOk (s ++ t) ↔ ConstantsOk s ∧ ConstantsOk t := by
  constructor
  · intro h
    refine ⟨fun p q c hpq hc => h p (q ++ t) c (by rw [hpq]; simp) (constantNext_append hc), ?_⟩
    rintro p q c rfl hc
    obtain ⟨r, l, nm, e⟩ := h (s ++ p) q c (by simp) hc
    rcases List.eq_nil_or_concat p with rfl | ⟨p', x, rfl⟩
    · exact (ht c hc).elim
    · rw [List.concat_eq_append, ← List.append_assoc] at e
      obtain ⟨_, e⟩ := List.append_inj' e rfl
      exact ⟨p', l, nm, by rw [List.concat_eq_append, e]⟩
  · rintro ⟨h1, h2⟩ p q c e hc
    rcases List.append_eq_append_iff.1 e with ⟨r, rfl, rfl⟩ | ⟨r, rfl, rfl⟩
    · obtain ⟨r', l, nm, e⟩ := h2 r q c rfl hc
      exact ⟨s ++ r', l, nm, by rw [e]; simp⟩
    · cases r with
      | nil => exact (ht c hc).elim
      | cons x r =>
        refine h1 p (x :: r) c rfl ?_
        cases hc with
        | intro h => exact .intro h

theorem constantNext_behind {q t : List Node} (ht : ∀ c, ¬ ConstantNext t c) (c : U12) : ConstantNext (q ++ t) c ↔ ConstantNext q c := by
  refine ⟨fun h => ?_, constantNext_append⟩
  cases q with
  | nil => exact (ht c h).elim
  | cons x q =>
    cases h with
    | intro h => exact .intro h

section
variable {A X Y B : List Node} {m n : Nat}

theorem Spec.Neighbours.symm (h : Neighbours A X Y B m n) : Neighbours A Y X B n m :=
  ⟨h.right, h.left, h.right_size, h.left_size, h.right_whole, h.left_whole, h.rest_whole⟩

theorem Spec.Neighbours.size_left (h : Neighbours A X Y B m n) (a : Nat) : Reaches X a (a + m) := by
  obtain ⟨j, e, hj⟩ := noOrg_reaches h.left h.left_size
  obtain rfl : m = j := by omega
  exact hj a

theorem Spec.Neighbours.size_right (h : Neighbours A X Y B m n) (a : Nat) : Reaches Y a (a + n) := h.symm.size_left a

theorem Spec.Neighbours.behind (h : Neighbours A X Y B m n) (c : U12) : ¬ ConstantNext (Y ++ B) c := by
  rw [constantNext_behind h.rest_whole]
  exact h.right_whole c

theorem Spec.Neighbours.both (h : Neighbours A X Y B m n) (c : U12) : ¬ ConstantNext (X ++ (Y ++ B)) c := by
  rw [constantNext_behind h.behind]
  exact h.left_whole c

theorem Spec.Neighbours.directives (_ : Neighbours A X Y B m n) (hd : DirectivesOk (A ++ (X ++ (Y ++ B)))) :
    DirectivesOk (A ++ (Y ++ (X ++ B))) := by
  intro l s xs hm
  refine hd l s xs ?_
  simp only [List.mem_append] at hm ⊢
  rcases hm with hm | hm | hm | hm
  · exact .inl hm
  · exact .inr (.inr (.inl hm))
  · exact .inr (.inl hm)
  · exact .inr (.inr (.inr hm))

/-- Statements without `.org` only add to the address. -/
theorem noOrg_le {p q : List Node} (hn : NoOrg (p ++ q)) {a b c : Nat} (h1 : Reaches p a b) (h2 : Reaches (p ++ q) a c) : b ≤ c := by
  obtain ⟨b', h3, h4⟩ := reaches_append.1 h2
  cases reaches_unique h1 h3
  obtain ⟨k, rfl, _⟩ := noOrg_reaches (noOrg_right hn) h4
  omega

theorem Spec.Neighbours.fits (h : Neighbours A X Y B m n) (hf : FitsMemory (A ++ (X ++ (Y ++ B)))) :
    FitsMemory (A ++ (Y ++ (X ++ B))) := by
  intro p q a e hr
  rw [show A ++ (Y ++ (X ++ B)) = A ++ ((Y ++ X) ++ B) by simp] at e
  rcases prefix_three e with ⟨q', rfl, rfl⟩ | ⟨p', q', e', rfl, rfl⟩ | ⟨p', rfl, rfl⟩
  · exact hf p (q' ++ (X ++ (Y ++ B))) a (by simp) hr
  · obtain ⟨b, h1, h2⟩ := reaches_append.1 hr
    have hn : NoOrg (p' ++ q') := by
      rw [← e']
      intro l s xs hm
      rcases List.mem_append.1 hm with hm | hm
      · exact h.right l s xs hm
      · exact h.left l s xs hm
    have h3 : Reaches (p' ++ q') b (b + n + m) := by
      rw [← e']
      exact reaches_append.2 ⟨_, h.size_right b, h.size_left _⟩
    have h4 := hf (A ++ (X ++ Y)) B (b + m + n) (by simp)
      (reaches_append.2 ⟨b, h1, reaches_append.2 ⟨_, h.size_left b, h.size_right _⟩⟩)
    have := noOrg_le hn h2 h3
    omega
  · obtain ⟨b, h1, h2⟩ := reaches_append.1 hr
    obtain ⟨b', h2, h3⟩ := reaches_append.1 h2
    obtain ⟨b'', h4, h5⟩ := reaches_append.1 h2
    cases reaches_unique h4 (h.size_right b)
    cases reaches_unique h5 (h.size_left (b + n))
    refine hf (A ++ (X ++ (Y ++ p'))) q a (by simp)
      (reaches_append.2 ⟨b, h1, reaches_append.2 ⟨_, h.size_left b, reaches_append.2 ⟨_, h.size_right _, ?_⟩⟩⟩)
    rw [show b + m + n = b + n + m by omega]
    exact h3

theorem Spec.Neighbours.clean (h : Neighbours A X Y B m n) (hc : Clean (A ++ (X ++ (Y ++ B)))) : Clean (A ++ (Y ++ (X ++ B))) := by
  obtain ⟨h1, h2, h3, h4⟩ := clean_iff.1 hc
  refine clean_iff.2 ⟨h.directives h1, ?_, ?_, h.fits h4⟩
  · rw [constants_cut h.both, constants_cut h.behind, constants_cut h.rest_whole] at h2
    rw [constants_cut h.symm.both, constants_cut h.symm.behind, constants_cut h.rest_whole]
    exact ⟨h2.1, h2.2.2.1, h2.2.1, h2.2.2.2⟩
  · refine List.Perm.nodup_iff ?_ |>.1 h3
    simp only [labelNames_append]
    refine List.Perm.append_left _ ?_
    rw [← List.append_assoc, ← List.append_assoc]
    exact List.Perm.append_right _ List.perm_append_comm

/-- A label of the left piece, in the order given. -/
theorem Spec.Neighbours.left_label (h : Neighbours A X Y B m n) (hc : Clean (A ++ (X ++ (Y ++ B)))) {L L' : LabelMap}
    (hl : LabelsOf (A ++ (X ++ (Y ++ B))) L) (hl' : LabelsOf (A ++ (Y ++ (X ++ B))) L') {nm : Str} (hx : AddressLabel X nm) :
    ∃ v v' : U12, L.get nm = some v ∧ L'.get nm = some v' ∧ v'.toNat = v.toNat + n := by
  obtain ⟨p, l, q, rfl, hq⟩ := hx
  have hd := (clean_iff.1 hc).1
  obtain ⟨a, ha⟩ := reaches_exists (nodes := A) (fun l s xs hm => hd l s xs (by simp [hm])) 0
  obtain ⟨b, hb⟩ := reaches_exists (nodes := p) (fun l s xs hm => hd l s xs (by simp [hm])) a
  obtain ⟨j, rfl, hj⟩ := noOrg_reaches (noOrg_left h.left) hb
  have hr : Reaches (A ++ p) 0 (a + j) := reaches_append.2 ⟨a, ha, hb⟩
  have hr' : Reaches (A ++ (Y ++ p)) 0 (a + n + j) := reaches_append.2 ⟨a, ha, reaches_append.2 ⟨_, h.size_right a, hj _⟩⟩
  have f := (clean_iff.1 hc).2.2.2 (A ++ p) (.label l nm :: (q ++ (Y ++ B))) _ (by simp) hr
  have f' := (clean_iff.1 (h.clean hc)).2.2.2 (A ++ (Y ++ p)) (.label l nm :: (q ++ B)) _ (by simp) hr'
  have e1 : (BitVec.ofNat 12 (a + j)).toNat = a + j := by rw [BitVec.toNat_ofNat, Nat.mod_eq_of_lt (by omega)]
  have e2 : (BitVec.ofNat 12 (a + n + j)).toNat = a + n + j := by rw [BitVec.toNat_ofNat, Nat.mod_eq_of_lt (by omega)]
  refine ⟨BitVec.ofNat 12 (a + j), BitVec.ofNat 12 (a + n + j), ?_, ?_, by omega⟩
  · rw [hl]
    refine labelValue_iff.2 ⟨A ++ p, l, q ++ (Y ++ B), by simp, .inr ⟨fun c => ?_, by rw [e1]; exact hr⟩⟩
    rw [constantNext_behind h.behind]
    exact hq c
  · rw [hl']
    refine labelValue_iff.2 ⟨A ++ (Y ++ p), l, q ++ B, by simp, .inr ⟨fun c => ?_, by rw [e2]; exact hr'⟩⟩
    rw [constantNext_behind h.rest_whole]
    exact hq c

/-- A value in the order given is one in the other order, except for the addresses in the pieces. -/
theorem Spec.Neighbours.value (h : Neighbours A X Y B m n) {nm : Str} {v : U12} (hv : LabelValue (A ++ (X ++ (Y ++ B))) nm v)
    (hx : ¬ AddressLabel X nm) (hy : ¬ AddressLabel Y nm) : LabelValue (A ++ (Y ++ (X ++ B))) nm v := by
  obtain ⟨p, l, q, e, hh⟩ := labelValue_iff.1 hv
  rcases split_three e with ⟨q', rfl, rfl⟩ | ⟨p', q', rfl, rfl, rfl⟩ | ⟨p', e, rfl⟩
  · refine labelValue_iff.2 ⟨p, l, q' ++ (Y ++ (X ++ B)), by simp, ?_⟩
    unfold ValueHere at hh ⊢
    simp only [constantNext_behind h.both] at hh
    simpa only [constantNext_behind h.symm.both] using hh
  · unfold ValueHere at hh
    simp only [constantNext_behind h.behind] at hh
    rcases hh with hh | ⟨hh, _⟩
    · exact labelValue_iff.2 ⟨A ++ (Y ++ p'), l, q' ++ B, by simp, .inl (constantNext_append hh)⟩
    · exact (hx ⟨p', l, q', rfl, hh⟩).elim
  · rcases split_three (A := Y) (C := B) (B := []) (by simpa using e) with ⟨q', rfl, rfl⟩ | ⟨p2, q', rfl, rfl, rfl⟩ | ⟨p2, e2, _⟩
    · unfold ValueHere at hh
      simp only [List.append_nil, constantNext_behind h.rest_whole] at hh
      rcases hh with hh | ⟨hh, _⟩
      · exact labelValue_iff.2 ⟨A ++ p', l, q' ++ (X ++ B), by simp, .inl (constantNext_append hh)⟩
      · exact (hy ⟨p', l, q', rfl, hh⟩).elim
    · refine labelValue_iff.2 ⟨A ++ (Y ++ (X ++ p2)), l, q', by simp, ?_⟩
      rcases hh with hh | ⟨h1, hr⟩
      · exact .inl (by simpa using hh)
      · refine .inr ⟨by simpa using h1, ?_⟩
        obtain ⟨b, h2, hr⟩ := reaches_append.1 hr
        obtain ⟨b1, h3, hr⟩ := reaches_append.1 hr
        obtain ⟨b2, h4, hr⟩ := reaches_append.1 hr
        cases reaches_unique h3 (h.size_left b)
        cases reaches_unique h4 (h.size_right (b + m))
        refine reaches_append.2 ⟨b, h2, reaches_append.2 ⟨_, h.size_right b, reaches_append.2 ⟨_, h.size_left _, ?_⟩⟩⟩
        rw [show b + n + m = b + m + n by omega]
        exact hr
    · simp at e2

theorem Spec.Neighbours.other_label (h : Neighbours A X Y B m n) {L L' : LabelMap}
    (hl : LabelsOf (A ++ (X ++ (Y ++ B))) L) (hl' : LabelsOf (A ++ (Y ++ (X ++ B))) L') {nm : Str} (hx : ¬ AddressLabel X nm)
    (hy : ¬ AddressLabel Y nm) : L'.get nm = L.get nm := by
  have hiff : ∀ v, L'.get nm = some v ↔ L.get nm = some v := by
    intro v
    rw [hl, hl']
    exact ⟨fun g => h.symm.value g hy hx, fun g => h.value g hx hy⟩
  cases hg : L.get nm with
  | some v => exact (hiff v).2 hg
  | none =>
    cases hg' : L'.get nm with
    | none => rfl
    | some v' => rw [(hiff v').1 hg'] at hg; cases hg

/-- A statement in the other order. -/
theorem Spec.Neighbours.place (h : Neighbours A X Y B m n) {pre post : List Node} {s : Node} {a : Nat}
    (e : A ++ (X ++ (Y ++ B)) = pre ++ s :: post) (hr : Reaches pre 0 a) :
    ∃ pre' post' a', A ++ (Y ++ (X ++ B)) = pre' ++ s :: post' ∧ Reaches pre' 0 a' ∧
      CarriedOver A X Y m n pre.length a pre'.length a' := by
  rcases split_three e with ⟨q', rfl, rfl⟩ | ⟨p', q', rfl, rfl, rfl⟩ | ⟨p', e, rfl⟩
  · exact ⟨pre, q' ++ (Y ++ (X ++ B)), a, by simp, hr, .inl ⟨by simp, rfl, rfl⟩⟩
  · obtain ⟨b, h1, hr⟩ := reaches_append.1 hr
    obtain ⟨j, rfl, hj⟩ := noOrg_reaches (noOrg_left h.left) hr
    refine ⟨A ++ (Y ++ p'), q' ++ B, b + n + j, by simp, reaches_append.2 ⟨b, h1, reaches_append.2 ⟨_, h.size_right b, hj _⟩⟩,
      .inr (.inl ?_)⟩
    simp only [List.length_append, List.length_cons]
    omega
  · obtain ⟨b, h1, hr⟩ := reaches_append.1 hr
    obtain ⟨b1, h2, hr⟩ := reaches_append.1 hr
    cases reaches_unique h2 (h.size_left b)
    rcases split_three (A := Y) (C := B) (B := []) (by simpa using e) with ⟨q', rfl, rfl⟩ | ⟨p2, q', rfl, rfl, rfl⟩ | ⟨p2, e2, _⟩
    · obtain ⟨j, rfl, hj⟩ := noOrg_reaches (noOrg_left h.right) hr
      refine ⟨A ++ p', q' ++ (X ++ B), b + j, by simp, reaches_append.2 ⟨b, h1, hj _⟩, .inr (.inr (.inl ?_))⟩
      simp only [List.length_append, List.length_cons]
      omega
    · obtain ⟨b2, h3, hr⟩ := reaches_append.1 hr
      cases reaches_unique h3 (h.size_right (b + m))
      refine ⟨A ++ (Y ++ (X ++ p2)), q', a, by simp,
        reaches_append.2 ⟨b, h1, reaches_append.2 ⟨_, h.size_right b, reaches_append.2 ⟨_, h.size_left _, ?_⟩⟩⟩, .inr (.inr (.inr ?_))⟩
      · rw [show b + n + m = b + m + n by omega]
        exact hr
      · refine ⟨?_, ?_, rfl⟩ <;> simp only [List.length_append] <;> omega
    · simp at e2

end

theorem swap_accepted {A X Y B : List Node} {m n : Nat} (hg : Neighbours A X Y B m n)
    (hx : UsedAsAddresses (A ++ (X ++ (Y ++ B))) X) (hy : UsedAsAddresses (A ++ (X ++ (Y ++ B))) Y) (ranges : List DataRange)
    (h : assemble (A ++ (X ++ (Y ++ B))) = .ret (.ok ranges)) : ∃ ranges', assemble (A ++ (Y ++ (X ++ B))) = .ret (.ok ranges') := by
  obtain ⟨L, secs, hc, hl, hs, rfl⟩ := assemble_ok_iff.1 h
  have hc' := hg.clean hc
  obtain ⟨L', hL'⟩ := defineLabels_of_clean hc'
  have hl' := (defineLabels_ok hL').2
  have hinst : ∀ l m fs, .instruction l m fs ∈ A ++ (Y ++ (X ++ B)) → ∃ w, Encodes L' m fs w := by
    intro l m fs hm
    have hm' : .instruction l m fs ∈ A ++ (X ++ (Y ++ B)) := by
      simp only [List.mem_append] at hm ⊢
      rcases hm with hm | hm | hm | hm
      · exact .inl hm
      · exact .inr (.inr (.inl hm))
      · exact .inr (.inl hm)
      · exact .inr (.inr (.inr hm))
    obtain ⟨w, hw⟩ := sections_instructions hs l m fs hm'
    by_cases hn : ∃ s, .identifier s ∈ fs ∧ AddressLabel X s
    · obtain ⟨s, hs1, hs2⟩ := hn
      obtain ⟨base, ht⟩ := hx l m fs s hm' hs1 hs2
      obtain ⟨_, v', _, h2, _⟩ := hg.left_label hc hl hl' hs2
      exact ⟨_, takesAddress_encodes ht h2⟩
    by_cases hn' : ∃ s, .identifier s ∈ fs ∧ AddressLabel Y s
    · obtain ⟨s, hs1, hs2⟩ := hn'
      obtain ⟨base, ht⟩ := hy l m fs s hm' hs1 hs2
      obtain ⟨v', _, h2, _, _⟩ := hg.symm.left_label hc' hl' hl hs2
      exact ⟨_, takesAddress_encodes ht h2⟩
    · exact ⟨w, encodes_agree (fun s hs1 => hg.other_label hl hl' (fun hs2 => hn ⟨s, hs1, hs2⟩) (fun hs2 => hn' ⟨s, hs1, hs2⟩)) hw⟩
  obtain ⟨secs', hs'⟩ := sections_exist _ (clean_iff.1 hc').1 hinst 0
  exact ⟨_, assemble_ok_iff.2 ⟨L', secs', hc', hl', hs', rfl⟩⟩

theorem carried_symm {A X Y : List Node} {m n i x i' x' : Nat} (h : CarriedOver A X Y m n i x i' x') :
    CarriedOver A Y X n m i' x' i x := by
  unfold CarriedOver at *
  omega

theorem swap_kept {A X Y B : List Node} {m n : Nat} (hg : Neighbours A X Y B m n) {L L' : LabelMap}
    (hl : LabelsOf (A ++ (X ++ (Y ++ B))) L) (hl' : LabelsOf (A ++ (Y ++ (X ++ B))) L') {i x i' x' : Nat} {b : U8}
    (hn : ∀ l m fs s, (A ++ (X ++ (Y ++ B)))[i]? = some (.instruction l m fs) → .identifier s ∈ fs → ¬ AddressLabel X s ∧ ¬ AddressLabel Y s)
    (hx : CarriedOver A X Y m n i x i' x') (h : Puts L (A ++ (X ++ (Y ++ B))) i x b) : Puts L' (A ++ (Y ++ (X ++ B))) i' x' b := by
  obtain ⟨pre, s, post, a, bytes, e, rfl, hr, hb, hle, hat⟩ := h
  obtain ⟨pre', post', a', e', hr', hc⟩ := hg.place e hr
  have hb' : Emits L' s bytes := by
    refine emits_agree (fun l m fs t hm hf => ?_) hb
    rw [List.mem_singleton] at hm
    obtain ⟨h1, h2⟩ := hn l m fs t (by rw [e, hm]; simp) hf
    exact hg.other_label hl hl' h1 h2
  unfold CarriedOver at hx hc
  refine ⟨pre', s, post', a', bytes, e', by omega, hr', hb', by omega, ?_⟩
  rw [show x' - a' = x - a by omega, hat]

end C8S
