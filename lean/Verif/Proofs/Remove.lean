import Verif.Spec.Remove
import Verif.Proofs.Adjust

/- Lemmas for C122. -/

namespace C8S

open Spec

theorem takesUpTo_le {L : LabelMap} {m s : Str} {fs : List Field} {w lim : Nat} {v : U12} (hw : Encodes L m fs w)
    (hf : .identifier s ∈ fs) (hv : L.get s = some v) (ht : TakesUpTo m fs lim) : v.toNat ≤ lim := by
  obtain ⟨row, s, hsel, hsl, hlim⟩ := ht
  refine Nat.le_of_not_lt fun hlt => ?_
  cases s <;> cases hlim
  · exact not_encodes_and_fails hw (.eightBit hsel hsl hf (.label hv) hlt)
  · exact not_encodes_and_fails hw (.fourBit hsel hsl hf (.label hv) hlt)
  · have := v.isLt
    omega

theorem thinned_refl (ns : List Node) : Thinned ns ns := by
  induction ns with
  | nil => exact .nil
  | cons n ns ih => exact .keep ih

theorem thinned_append {ns ns' : List Node} (A : List Node) (h : Thinned ns ns') : Thinned (A ++ ns) (A ++ ns') := by
  induction A with
  | nil => exact h
  | cons n A ih => exact .keep ih

/-- The statements up to the next `.org`, and the remainder. -/
theorem until_org {ns : List Node} (hd : DirectivesOk ns) : ∃ B C, ns = B ++ C ∧ NoOrg B ∧ (C = [] ∨ StartsWithOrg C) := by
  induction ns with
  | nil => exact ⟨[], [], rfl, (fun _ _ _ h => by cases h), .inl rfl⟩
  | cons n ns ih =>
    by_cases hn : ∃ l s xs v, n = .directive l s xs ∧ DirectiveMeans s xs (.org v)
    · obtain ⟨l, s, xs, v, rfl, hm⟩ := hn
      exact ⟨[], _, rfl, (fun _ _ _ h => by cases h), .inr ⟨l, s, xs, v, ns, hm, rfl⟩⟩
    · obtain ⟨B, C, rfl, hB, hC⟩ := ih fun l s xs h => hd l s xs (List.mem_cons_of_mem _ h)
      refine ⟨n :: B, C, rfl, ?_, hC⟩
      intro l s xs h hs
      rcases List.mem_cons.1 h with rfl | h
      · obtain ⟨d, hm⟩ := hd l s xs (by simp)
        cases hm with
        | org a h' => exact hn ⟨_, _, _, _, rfl, .org a h'⟩
        | equ a h' => exact absurd (hs.symm.trans h') (by decide)
        | db h' h1 h2 => exact absurd (hs.symm.trans h') (by decide)
      · exact hB l s xs h hs

theorem remove_gap {A X D : List Node} (hX : DataOnly X) (hne : X ≠ []) (hc : Clean (A ++ (X ++ D))) :
    ∃ B C k, D = B ++ C ∧ Gap A X B C k := by
  obtain ⟨hd, hco, _⟩ := clean_iff.1 hc
  obtain ⟨B, C, rfl, hB, hC⟩ := until_org (ns := D) fun l s xs h => hd l s xs (by simp [h])
  obtain ⟨k, hk⟩ := reaches_exists (nodes := X) (fun l s xs h => hd l s xs (by simp [h])) 0
  refine ⟨B, C, k, rfl, hX, hne, hk, hB, hC, ?_⟩
  intro c hcn
  obtain ⟨r, l, nm, e⟩ := hco (A ++ X) (B ++ C) c (by simp) hcn
  rcases List.eq_nil_or_concat X with rfl | ⟨X', x, rfl⟩
  · exact hne rfl
  · rw [List.concat_eq_append, ← List.append_assoc] at e
    obtain ⟨_, e⟩ := List.append_inj' e rfl
    cases e
    exact data_no_label hX (l := l) (s := nm) (by simp)

/-- The instructions of a program can still be encoded when labels get smaller. -/
theorem encodes_smaller {L L' : LabelMap} {m : Str} {fs : List Field} {w : Nat} (hw : Encodes L m fs w)
    (h : ∀ s v, L.get s = some v → ∃ v' : U12, L'.get s = some v' ∧ v'.toNat ≤ v.toNat) : ∃ w', Encodes L' m fs w' := by
  by_cases hf : ∃ s, .identifier s ∈ fs
  · obtain ⟨s, hf⟩ := hf
    obtain ⟨lim, v, ht, hv, _, hadj⟩ := encodes_adjust hw hf
    obtain ⟨v', hv', hle⟩ := h s v hv
    exact ⟨_, hadj L' v' hv' (Nat.le_trans hle (takesUpTo_le hw hf hv ht))⟩
  · exact ⟨w, encodes_agree (fun s hs => (hf ⟨s, hs⟩).elim) hw⟩

theorem remove_labels {A X B C : List Node} {k : Nat} (hg : Gap A X B C k) (hc : Clean (A ++ (X ++ (B ++ C)))) {L L' : LabelMap}
    (hl : LabelsOf (A ++ (X ++ (B ++ C))) L) (hl' : LabelsOf (A ++ (B ++ C)) L') (s : Str) (v : U12) (hv : L.get s = some v) :
    ∃ v' : U12, L'.get s = some v' ∧ v'.toNat ≤ v.toNat := by
  obtain ⟨h1, h2⟩ := hg.labels hc hl' hl s
  by_cases hs : AddressLabel B s
  · obtain ⟨u, u', e1, e2, e3⟩ := h1 hs
    rw [hv] at e2
    cases e2
    exact ⟨u, e1, by omega⟩
  · exact ⟨v, by rw [← h2 hs, hv], Nat.le_refl _⟩

theorem remove_accepted {A X B C : List Node} {k : Nat} (hg : Gap A X B C k) {ranges : List DataRange}
    (h : assemble (A ++ (X ++ (B ++ C))) = .ret (.ok ranges)) : ∃ ranges', assemble (A ++ (B ++ C)) = .ret (.ok ranges') := by
  obtain ⟨L, secs, hc, hl, hs, rfl⟩ := assemble_ok_iff.1 h
  obtain ⟨hc', _⟩ := hg.clean.1 hc
  obtain ⟨L', hL'⟩ := defineLabels_of_clean hc'
  have hl' := (defineLabels_ok hL').2
  obtain ⟨secs', hs'⟩ := sections_exist (labels := L') (A ++ (B ++ C)) (clean_iff.1 hc').1 (fun l m fs hi => by
    obtain ⟨w, hw⟩ := sections_instructions hs l m fs (by
      simp only [List.mem_append] at hi ⊢
      rcases hi with hi | hi | hi <;> simp [hi])
    exact encodes_smaller hw (remove_labels hg hc hl hl')) 0
  exact ⟨_, assemble_ok_iff.2 ⟨L', secs', hc', hl', hs', rfl⟩⟩

theorem remove_addresses {A X B C : List Node} {k : Nat} (hg : Gap A X B C k) {ranges ranges' : List DataRange}
    (h : assemble (A ++ (X ++ (B ++ C))) = .ret (.ok ranges)) (h' : assemble (A ++ (B ++ C)) = .ret (.ok ranges')) :
    ∃ u v a n, Reaches A 0 a ∧ Reaches B a (a + n) ∧ (image ranges).map Prod.fst = u ++ (List.range' a (n + k) ++ v) ∧
      (image ranges').map Prod.fst = u ++ (List.range' a n ++ v) := by
  obtain ⟨L, secs, hc, hl, hs, rfl⟩ := assemble_ok_iff.1 h
  obtain ⟨L', secs', hc', hl', hs', rfl⟩ := assemble_ok_iff.1 h'
  rw [image_nonEmpty, image_nonEmpty]
  have hd := (clean_iff.1 hc').1
  obtain ⟨a, ha⟩ := reaches_exists (nodes := A) (fun l s xs hm => hd l s xs (by simp [hm])) 0
  obtain ⟨b, hb⟩ := reaches_exists (nodes := B) (fun l s xs hm => hd l s xs (by simp [hm])) a
  obtain ⟨n, rfl, hn⟩ := noOrg_reaches hg.section_end hb
  obtain ⟨u, r1, e1, hu, hr1⟩ := writes_append ha (sections_image hs)
  obtain ⟨x, r2, e2, hx, hr2⟩ := writes_append (hg.size_at a) hr1
  obtain ⟨y, v, e3, hy, hv⟩ := writes_append (hn (a + k)) hr2
  obtain ⟨u', r1', e1', hu', hr1'⟩ := writes_append ha (sections_image hs')
  obtain ⟨y', v', e2', hy', hv'⟩ := writes_append hb hr1'
  obtain ⟨xb, hxb, rfl⟩ := (writes_block (data_noOrg hg.data)).1 hx
  obtain ⟨yb, hyb, rfl⟩ := (writes_block hg.section_end).1 hy
  obtain ⟨yb', hyb', rfl⟩ := (writes_block hg.section_end).1 hy'
  have l1 := reaches_unique (hg.size_at 0) (emitsBlock_reaches hxb 0)
  have l2 := reaches_unique (hn 0) (emitsBlock_reaches hyb 0)
  have l3 := reaches_unique (hn 0) (emitsBlock_reaches hyb' 0)
  have l1 : xb.length = k := by omega
  have l2 : yb.length = n := by omega
  have l3 : yb'.length = n := by omega
  refine ⟨u.map Prod.fst, v.map Prod.fst, a, n, ha, hb, ?_, ?_⟩
  · rw [e1, e2, e3]
    simp only [List.map_append, placeAt_addresses, l1, l2]
    rw [Nat.add_comm n k, ← List.range'_append_1 (s := a), List.append_assoc]
  · rw [e1', e2']
    simp only [List.map_append, placeAt_addresses, l3]
    rw [writes_addresses hu hu', writes_addresses (writes_from hg.remainder hv) hv']

end C8S
