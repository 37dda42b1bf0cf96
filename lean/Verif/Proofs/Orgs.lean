import Verif.Proofs.Combine

/- Lemmas on `.org`s that make no difference, and on the order of labels (C85). -/

namespace C8S

open Spec

/-- Only `.org`s. -/
def OrgsOnly (X : List Node) : Prop :=
  ∀ n ∈ X, ∃ l s xs, n = .directive l s xs ∧ ∃ v, DirectiveMeans s xs (.org v)

theorem orgs_no_label {X : List Node} (h : OrgsOnly X) {l : Loc} {s : Str} : .label l s ∉ X := by
  intro hm
  obtain ⟨_, _, _, e, _⟩ := h _ hm
  cases e

theorem orgs_no_instruction {X : List Node} (h : OrgsOnly X) {l : Loc} {m : Str} {fs : List Field} :
    .instruction l m fs ∉ X := by
  intro hm
  obtain ⟨_, _, _, e, _⟩ := h _ hm
  cases e

theorem orgs_labelNames {X : List Node} (h : OrgsOnly X) : labelNames X = [] := by
  induction X with
  | nil => rfl
  | cons n X ih =>
    obtain ⟨l, s, xs, rfl, _⟩ := h n List.mem_cons_self
    exact ih fun m hm => h m (List.mem_cons_of_mem _ hm)

theorem orgs_no_constant {X B : List Node} (h : OrgsOnly X) (hB : ∀ c, ¬ ConstantNext B c) {c : U12} :
    ¬ ConstantNext (X ++ B) c := by
  cases X with
  | nil => exact hB c
  | cons n X =>
    obtain ⟨l, s, xs, rfl, v, hv⟩ := h n List.mem_cons_self
    intro hc
    cases hc with
    | intro hd => cases means_unique hv hd

theorem orgs_reaches {X : List Node} (h : OrgsOnly X) {a b : Nat} (hr : Reaches X a b) : b = a ∨ b ≤ 0xFFF := by
  induction hr with
  | nil => exact .inl rfl
  | cons hm _ ih =>
    have ih := ih fun m hm => h m (List.mem_cons_of_mem _ hm)
    obtain ⟨l, s, xs, e, v, hv⟩ := h _ List.mem_cons_self
    cases hm with
    | org hd =>
      cases e
      cases means_unique hv hd
      have := v.isLt
      exact .inr (by omega)
    | db hd => cases e; cases means_unique hv hd
    | equ hd => cases e; cases means_unique hv hd
    | label => cases e
    | instruction => cases e

theorem orgs_writes {L : LabelMap} {X B : List Node} (h : OrgsOnly X) {a b : Nat} (hr : Reaches X a b)
    {ws : List (Nat × U8)} : Writes L (X ++ B) a ws ↔ Writes L B b ws := by
  induction hr with
  | nil => exact Iff.rfl
  | @cons n X a b c hm _ ih =>
    have ih := ih fun m hm => h m (List.mem_cons_of_mem _ hm)
    obtain ⟨l, s, xs, rfl, v, hv⟩ := h _ List.mem_cons_self
    cases hm with
    | org hd =>
      rename_i v'
      cases means_unique hv hd
      rw [← ih, List.cons_append]
      constructor
      · intro hw
        cases hw with
        | org hd' hw => cases means_unique hv hd'; exact hw
        | emit he _ =>
          cases he with
          | db hd' => cases means_unique hv hd'
          | equ hd' => cases means_unique hv hd'
      · exact fun hw => .org hv hw
    | db hd => cases means_unique hv hd
    | equ hd => cases means_unique hv hd

section
variable {A X Y B : List Node}

/-- The `.org`s leave the address counter where the others leave it, unless nothing follows. -/
structure SameOrgs (A X Y B : List Node) : Prop where
  left : OrgsOnly X
  right : OrgsOnly Y
  constant : ∀ c, ¬ ConstantNext B c
  same : B = [] ∨ ∀ c, Reaches (A ++ X) 0 c ↔ Reaches (A ++ Y) 0 c

theorem SameOrgs.symm (h : SameOrgs A X Y B) : SameOrgs A Y X B :=
  ⟨h.right, h.left, h.constant, h.same.imp id fun h c => (h c).symm⟩

theorem SameOrgs.reaches (h : SameOrgs A X Y B) (hne : B ≠ []) {p : List Node} {c : Nat}
    (hr : Reaches (A ++ (X ++ p)) 0 c) : Reaches (A ++ (Y ++ p)) 0 c := by
  rw [← List.append_assoc] at hr ⊢
  obtain ⟨b, h1, h2⟩ := reaches_append.1 hr
  rcases h.same with rfl | hs
  · exact (hne rfl).elim
  · exact reaches_append.2 ⟨b, (hs b).1 h1, h2⟩

theorem SameOrgs.constantNext (h : SameOrgs A X Y B) {q : List Node} {c : U12} (hc : ConstantNext (q ++ (X ++ B)) c) :
    ConstantNext (q ++ (Y ++ B)) c := by
  cases q with
  | nil => exact (orgs_no_constant h.left h.constant hc).elim
  | cons n q =>
    cases hc with
    | intro hd => exact .intro hd

theorem SameOrgs.labelValue (h : SameOrgs A X Y B) {nm : Str} {u : U12} (hv : LabelValue (A ++ (X ++ B)) nm u) :
    LabelValue (A ++ (Y ++ B)) nm u := by
  obtain ⟨p, loc, q, e, hv⟩ := labelValue_iff.1 hv
  refine labelValue_iff.2 ?_
  rcases split_three e with ⟨q', rfl, rfl⟩ | ⟨p', q', rfl, _⟩ | ⟨p', rfl, rfl⟩
  · refine ⟨p, loc, q' ++ (Y ++ B), by simp, ?_⟩
    rcases hv with hv | ⟨h1, h2⟩
    · exact .inl (h.constantNext hv)
    · exact .inr ⟨fun c hc => h1 c (h.symm.constantNext hc), h2⟩
  · exact (orgs_no_label h.left (l := loc) (s := nm) (by simp)).elim
  · refine ⟨A ++ (Y ++ p'), loc, q, by simp, ?_⟩
    rcases hv with hv | ⟨h1, h2⟩
    · exact .inl hv
    · exact .inr ⟨h1, h.reaches (by simp) h2⟩

theorem SameOrgs.labelsOf (h : SameOrgs A X Y B) {L : LabelMap} :
    LabelsOf (A ++ (X ++ B)) L ↔ LabelsOf (A ++ (Y ++ B)) L := by
  have : ∀ nm v, LabelValue (A ++ (X ++ B)) nm v ↔ LabelValue (A ++ (Y ++ B)) nm v :=
    fun nm v => ⟨h.labelValue, h.symm.labelValue⟩
  simp only [LabelsOf, this]

theorem SameOrgs.clean (h : SameOrgs A X Y B) (hc : Clean (A ++ (X ++ B))) : Clean (A ++ (Y ++ B)) := by
  obtain ⟨h1, h2, h3, h4⟩ := clean_iff.1 hc
  refine clean_iff.2 ⟨?_, ?_, ?_, ?_⟩
  · intro l s xs hm
    rcases List.mem_append.1 hm with hm | hm
    · exact h1 l s xs (List.mem_append_left _ hm)
    rcases List.mem_append.1 hm with hm | hm
    · obtain ⟨_, _, _, e, v, hv⟩ := h.right _ hm
      cases e
      exact ⟨_, hv⟩
    · exact h1 l s xs (List.mem_append_right _ (List.mem_append_right _ hm))
  · intro p q c e hq
    rcases prefix_three e with ⟨q', rfl, rfl⟩ | ⟨p', q', e', rfl, rfl⟩ | ⟨p', rfl, rfl⟩
    · exact h2 p (q' ++ (X ++ B)) c (by simp) (h.symm.constantNext hq)
    · exact (orgs_no_constant (fun n hn => h.right n (by rw [e']; simp [hn])) h.constant hq).elim
    · have := h2 (A ++ (X ++ p')) q c (by simp) hq
      by_cases hp : p' = []
      · subst hp
        exact (h.constant c hq).elim
      · rw [← List.append_assoc, endsWithLabel_append hp] at this ⊢
        exact this
  · rw [labelNames_append, labelNames_append, orgs_labelNames h.right]
    rw [labelNames_append, labelNames_append, orgs_labelNames h.left] at h3
    exact h3
  · intro p q a e hr
    rcases prefix_three e with ⟨q', rfl, rfl⟩ | ⟨p', q', e', rfl, rfl⟩ | ⟨p', rfl, rfl⟩
    · exact h4 p (q' ++ (X ++ B)) a (by simp) hr
    · obtain ⟨b, hb1, hb2⟩ := reaches_append.1 hr
      rcases orgs_reaches (fun n hn => h.right n (by rw [e']; simp [hn])) hb2 with rfl | hle
      · exact h4 A (X ++ B) _ rfl hb1
      · exact hle
    · by_cases hB : p' ++ q = []
      · obtain ⟨rfl, rfl⟩ := List.append_eq_nil_iff.1 hB
        rw [List.append_nil] at hr
        obtain ⟨b, hb1, hb2⟩ := reaches_append.1 hr
        rcases orgs_reaches h.right hb2 with rfl | hle
        · exact h4 A _ _ rfl hb1
        · exact hle
      · exact h4 (A ++ (X ++ p')) q a (by simp) (h.symm.reaches hB hr)

theorem SameOrgs.image (h : SameOrgs A X Y B) {r : List DataRange} (ha : assemble (A ++ (X ++ B)) = .ret (.ok r)) :
    ∃ r', assemble (A ++ (Y ++ B)) = .ret (.ok r') ∧ Spec.image r' = Spec.image r := by
  obtain ⟨L, secs, hc, hl, hs, rfl⟩ := assemble_ok_iff.1 ha
  have hc' := h.clean hc
  have hl' := h.labelsOf.1 hl
  have hd' := (clean_iff.1 hc').1
  obtain ⟨secs', hs'⟩ := sections_exist (labels := L) (A ++ (Y ++ B)) hd' (fun l m fs hm => by
    refine sections_instructions hs l m fs ?_
    rcases List.mem_append.1 hm with hm | hm
    · exact List.mem_append_left _ hm
    rcases List.mem_append.1 hm with hm | hm
    · exact (orgs_no_instruction h.right hm).elim
    · exact List.mem_append_right _ (List.mem_append_right _ hm)) 0
  refine ⟨_, assemble_ok_iff.2 ⟨L, secs', hc', hl', hs', rfl⟩, ?_⟩
  rw [image_nonEmpty, image_nonEmpty]
  obtain ⟨a, hA⟩ := reaches_exists (fun l s xs hm => hd' l s xs (List.mem_append_left _ hm)) 0
  obtain ⟨b, hX⟩ := reaches_exists
    (fun l s xs hm => (clean_iff.1 hc).1 l s xs (List.mem_append_right _ (List.mem_append_left _ hm))) a
  obtain ⟨b', hY⟩ := reaches_exists
    (fun l s xs hm => hd' l s xs (List.mem_append_right _ (List.mem_append_left _ hm))) a
  obtain ⟨w1, w2, e, h1, h2⟩ := writes_append hA (sections_image hs)
  obtain ⟨v1, v2, e', h1', h2'⟩ := writes_append hA (sections_image hs')
  rw [e, e', writes_unique h1' h1]
  rw [orgs_writes h.left hX] at h2
  rw [orgs_writes h.right hY] at h2'
  rcases h.same with rfl | hsame
  · cases h2
    cases h2'
    rfl
  · cases reaches_unique ((hsame b).1 (reaches_append.2 ⟨a, hA, hX⟩)) (reaches_append.2 ⟨a, hA, hY⟩)
    rw [writes_unique h2' h2]

/-- Sections that start alike stay alike behind the same statements. -/
theorem sections_behind {L : LabelMap}
    (h : ∀ start secs, Sections L start X secs → ∃ d r r', secs = ⟨start, d⟩ :: r ∧ Sections L start Y (⟨start, d⟩ :: r') ∧
      nonEmpty r' = nonEmpty r) (start : U12) (secs : List DataRange) (hs : Sections L start (A ++ X) secs) :
    ∃ d r r', secs = ⟨start, d⟩ :: r ∧ Sections L start (A ++ Y) (⟨start, d⟩ :: r') ∧ nonEmpty r' = nonEmpty r := by
  induction A generalizing start secs with
  | nil => exact h start secs hs
  | cons n A ih =>
    cases hs with
    | org hd hs =>
      obtain ⟨d, r, r', rfl, h1, h2⟩ := ih _ _ hs
      refine ⟨_, _, _, rfl, .org hd h1, ?_⟩
      rw [nonEmpty_cons, h2, ← nonEmpty_cons]
    | emit he hs =>
      obtain ⟨d, r, r', e, h1, h2⟩ := ih _ _ hs
      cases e
      exact ⟨_, _, _, rfl, .emit he h1, h2⟩

theorem SameOrgs.ranges (h : SameOrgs A X Y B)
    (hs : ∀ L start secs, Sections L start (X ++ B) secs → ∃ d r r', secs = ⟨start, d⟩ :: r ∧
      Sections L start (Y ++ B) (⟨start, d⟩ :: r') ∧ nonEmpty r' = nonEmpty r) {r : List DataRange}
    (ha : assemble (A ++ (X ++ B)) = .ret (.ok r)) : assemble (A ++ (Y ++ B)) = .ret (.ok r) := by
  obtain ⟨L, secs, hc, hl, hsec, rfl⟩ := assemble_ok_iff.1 ha
  obtain ⟨d, r, r', rfl, h1, h2⟩ := sections_behind (hs L) 0 secs hsec
  refine assemble_ok_iff.2 ⟨L, _, h.clean hc, h.labelsOf.1 hl, h1, ?_⟩
  rw [nonEmpty_cons, nonEmpty_cons _ r', h2]

end

theorem orgs_single {l : Loc} {s : Str} {xs : List Literal} {v : U12} (h : DirectiveMeans s xs (.org v)) :
    OrgsOnly [.directive l s xs] := by
  intro n hn
  rw [List.mem_singleton] at hn
  exact ⟨l, s, xs, hn, v, h⟩

theorem orgs_nil : OrgsOnly [] := by intro n hn; cases hn

theorem org_sections {L : LabelMap} {l : Loc} {s : Str} {xs : List Literal} {v start : U12} {B : List Node}
    {secs : List DataRange} (h : DirectiveMeans s xs (.org v)) (hs : Sections L start (.directive l s xs :: B) secs) :
    ∃ r, secs = ⟨start, []⟩ :: r ∧ Sections L v B r := by
  cases hs with
  | org hd hs => cases means_unique h hd; exact ⟨_, rfl, hs⟩
  | emit he _ => exact (emits_not_org he h).elim

theorem org_moves {l : Loc} {s : Str} {xs : List Literal} {v : U12} {a c : Nat} (h : DirectiveMeans s xs (.org v)) :
    Reaches [.directive l s xs] a c ↔ c = v.toNat := by
  have hr : Reaches [.directive l s xs] a v.toNat := .cons (.org h) .nil
  exact ⟨fun h => reaches_unique h hr, fun e => e ▸ hr⟩

/-! ### Labels next to each other -/

section
variable {A B : List Node} {l l' : Loc} {x y : Str}

theorem swap_value (hB : ∀ c, ¬ ConstantNext B c) (hne : x ≠ y) {nm : Str} {u : U12}
    (h : LabelValue (A ++ ([.label l x] ++ ([.label l' y] ++ B))) nm u) :
    LabelValue (A ++ ([.label l' y] ++ ([.label l x] ++ B))) nm u := by
  have hno : ∀ {l : Loc} {z : Str} c, ¬ ConstantNext ([.label l z] ++ B) c := by
    intro l z c h
    cases h
  by_cases e : nm = x
  · subst e
    rw [← List.append_assoc, label_value hB hne, List.append_assoc] at h
    exact (label_value hno hne).2 h
  · rw [label_value hno e] at h
    rw [← List.append_assoc, label_value hB e, List.append_assoc]
    exact h

theorem swap_assemble (hB : ∀ c, ¬ ConstantNext B c) {r : List DataRange}
    (h : assemble (A ++ ([.label l x] ++ ([.label l' y] ++ B))) = .ret (.ok r)) :
    assemble (A ++ ([.label l' y] ++ ([.label l x] ++ B))) = .ret (.ok r) := by
  have hno : ∀ {l : Loc} {z : Str} c, ¬ ConstantNext ([.label l z] ++ B) c := by
    intro l z c h
    cases h
  obtain ⟨L, secs, hc, hl, hs, rfl⟩ := assemble_ok_iff.1 h
  obtain ⟨h1, h2⟩ := (label_clean hno).1 hc
  obtain ⟨h3, h4⟩ := (label_clean hB).1 h2
  rw [labelNames_append] at h1 h3
  have hne : x ≠ y := by
    rintro rfl
    exact h1 (List.mem_append_right _ List.mem_cons_self)
  have hx : x ∉ labelNames (A ++ B) := by
    rw [labelNames_append]
    intro hm
    rcases List.mem_append.1 hm with hm | hm
    · exact h1 (List.mem_append_left _ hm)
    · exact h1 (List.mem_append_right _ (List.mem_cons_of_mem _ hm))
  have hy : y ∉ labelNames (A ++ ([.label l x] ++ B)) := by
    rw [labelNames_append]
    intro hm
    rcases List.mem_append.1 hm with hm | hm
    · exact h3 (List.mem_append_left _ hm)
    · rcases List.mem_cons.1 hm with hm | hm
      · exact hne hm.symm
      · exact h3 (List.mem_append_right _ hm)
  refine assemble_ok_iff.2 ⟨L, secs, (label_clean hno).2 ⟨hy, (label_clean hB).2 ⟨hx, h4⟩⟩, ?_, ?_, rfl⟩
  · intro nm v
    rw [hl nm v]
    exact ⟨swap_value hB hne, swap_value hB hne.symm⟩
  · exact label_sections.2 (label_sections.2 (label_sections.1 (label_sections.1 hs)))

end

end C8S
