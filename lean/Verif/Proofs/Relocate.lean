import Verif.Proofs.Valid

/- Lemmas on moving constant definitions and sections (C35, C52). -/

namespace C8S

open Spec

/-! ### Constants -/

section Constant

variable {A B : List Node} {l l' : Loc} {name en : Str} {args : List Literal} {v : U12}

/-- The two statements of a constant definition. -/
abbrev constantPair (l l' : Loc) (name en : Str) (args : List Literal) : List Node :=
  [.label l name, .directive l' en args]

theorem pair_reaches (hm : DirectiveMeans en args (.equ v)) {p : List Node} {a c : Nat} :
    Reaches (A ++ (constantPair l l' name en args ++ p)) a c ↔ Reaches (A ++ p) a c := by
  simp only [reaches_append]
  constructor
  · rintro ⟨b, h1, b', h2, h3⟩
    have : Reaches (constantPair l l' name en args) b b := .cons .label (.cons (.equ hm) .nil)
    cases reaches_unique h2 this
    exact ⟨_, h1, h3⟩
  · rintro ⟨b, h1, h3⟩
    exact ⟨b, h1, b, .cons .label (.cons (.equ hm) .nil), h3⟩

theorem pair_emits {labels : LabelMap} (hm : DirectiveMeans en args (.equ v)) {start : U12} {secs : List DataRange} :
    Sections labels start (A ++ (constantPair l l' name en args ++ B)) secs ↔ Sections labels start (A ++ B) secs := by
  induction A generalizing start secs with
  | nil =>
    simp only [List.nil_append, constantPair, List.cons_append]
    constructor
    · intro h
      cases h with
      | emit he h =>
        cases he
        cases h with
        | org ho _ => cases means_unique hm ho
        | emit he h =>
          cases emits_unique he (.equ hm)
          exact h
    · intro h
      obtain ⟨d, r, rfl⟩ := sections_head h
      exact .emit (bytes := []) .label (.emit (bytes := []) (.equ hm) h)
  | cons n A ih =>
    constructor
    · intro h
      cases h with
      | org ho h => exact .org ho (ih.1 h)
      | emit he h => exact .emit he (ih.1 h)
    · intro h
      cases h with
      | org ho h => exact .org ho (ih.2 h)
      | emit he h => exact .emit he (ih.2 h)

theorem not_constantNext_pair {p : List Node} {c : U12} : ¬ ConstantNext (constantPair l l' name en args ++ p) c := by
  intro h
  cases h

/-- What follows a position in `A` begins with the same constant with or without the pair. -/
theorem pair_constantNext (hsplit : EndsWithLabel A → ∀ c, ¬ ConstantNext B c) {p q : List Node} {loc : Loc} {nm : Str}
    (hA : A = p ++ .label loc nm :: q) {c : U12} :
    ConstantNext (q ++ (constantPair l l' name en args ++ B)) c ↔ ConstantNext (q ++ B) c := by
  cases q with
  | nil =>
    have := hsplit ⟨p, loc, nm, hA⟩ c
    exact ⟨fun h => (not_constantNext_pair h).elim, fun h => (this h).elim⟩
  | cons n q =>
    constructor
    · intro h
      cases h with
      | intro h => exact .intro h
    · intro h
      cases h with
      | intro h => exact .intro h

/-- Splitting a list at an element of `A ++ C ++ B`. -/
theorem split_three {α : Type} {A C B p q : List α} {x : α} (h : A ++ (C ++ B) = p ++ x :: q) :
    (∃ q', A = p ++ x :: q' ∧ q = q' ++ (C ++ B)) ∨
    (∃ p' q', C = p' ++ x :: q' ∧ p = A ++ p' ∧ q = q' ++ B) ∨
    (∃ p', B = p' ++ x :: q ∧ p = A ++ (C ++ p')) := by
  rcases List.append_eq_append_iff.1 h with ⟨r, rfl, hr⟩ | ⟨r, rfl, hr⟩
  · rcases List.append_eq_append_iff.1 hr with ⟨s, rfl, hs⟩ | ⟨s, rfl, hs⟩
    · exact .inr (.inr ⟨s, hs, rfl⟩)
    · cases s with
      | nil =>
        simp at hs
        exact .inr (.inr ⟨[], by simpa using hs.symm, by simp⟩)
      | cons y s =>
        simp at hs
        obtain ⟨rfl, rfl⟩ := hs
        exact .inr (.inl ⟨r, s, rfl, rfl, rfl⟩)
  · cases r with
    | nil =>
      simp at hr
      cases C with
      | nil => exact .inr (.inr ⟨[], by simpa using hr.symm, by simp⟩)
      | cons y C =>
        simp at hr
        obtain ⟨rfl, rfl⟩ := hr
        exact .inr (.inl ⟨[], C, rfl, by simp, rfl⟩)
    | cons y r =>
      simp at hr
      obtain ⟨rfl, rfl⟩ := hr
      exact .inl ⟨r, rfl, rfl⟩

theorem pair_labelValue (hm : DirectiveMeans en args (.equ v)) (hsplit : EndsWithLabel A → ∀ c, ¬ ConstantNext B c)
    {nm : Str} {u : U12} :
    LabelValue (A ++ (constantPair l l' name en args ++ B)) nm u ↔ (nm = name ∧ u = v) ∨ LabelValue (A ++ B) nm u := by
  have hA : ∀ {p q : List Node} {loc : Loc}, A = p ++ .label loc nm :: q →
      (ValueHere p (q ++ (constantPair l l' name en args ++ B)) u ↔ ValueHere p (q ++ B) u) := by
    intro p q loc hA
    simp only [ValueHere, pair_constantNext hsplit hA]
  have hB : ∀ {p q : List Node}, ValueHere (A ++ (constantPair l l' name en args ++ p)) q u ↔ ValueHere (A ++ p) q u := by
    intro p q
    simp only [ValueHere, pair_reaches hm]
  rw [labelValue_iff, labelValue_iff]
  constructor
  · rintro ⟨p, loc, q, h, hv⟩
    rcases split_three h with ⟨q', rfl, rfl⟩ | ⟨p', q', hC, rfl, rfl⟩ | ⟨p', rfl, rfl⟩
    · exact .inr ⟨p, loc, q' ++ B, by simp, (hA rfl).1 hv⟩
    · left
      cases p' with
      | nil =>
        simp at hC
        obtain ⟨⟨_, rfl⟩, rfl⟩ := hC
        refine ⟨rfl, ?_⟩
        have hn : ConstantNext (Node.directive l' en args :: B) v := .intro hm
        rcases hv with hv | ⟨hv, _⟩
        · exact constantNext_unique hv hn
        · exact (hv _ hn).elim
      | cons x p' =>
        simp at hC
        obtain ⟨rfl, hC⟩ := hC
        cases p' with
        | nil => simp at hC
        | cons y p' => simp at hC
    · exact .inr ⟨A ++ p', loc, q, by simp, hB.1 hv⟩
  · rintro (⟨rfl, rfl⟩ | ⟨p, loc, q, h, hv⟩)
    · exact ⟨A, l, .directive l' en args :: B, by simp, .inl (.intro hm)⟩
    · rcases split_three (C := []) (by simpa using h) with ⟨q', rfl, rfl⟩ | ⟨p', q', hC, _⟩ | ⟨p', rfl, rfl⟩
      · exact ⟨p, loc, _, by simp, (hA rfl).2 (by simpa using hv)⟩
      · simp at hC
      · exact ⟨A ++ (constantPair l l' name en args ++ p'), loc, q, by simp, hB.2 (by simpa using hv)⟩

/-- A prefix of `A ++ C ++ B`. -/
theorem prefix_three {α : Type} {A C B p q : List α} (h : A ++ (C ++ B) = p ++ q) :
    (∃ q', A = p ++ q' ∧ q = q' ++ (C ++ B)) ∨
    (∃ p' q', C = p' ++ q' ∧ p = A ++ p' ∧ q = q' ++ B) ∨
    (∃ p', B = p' ++ q ∧ p = A ++ (C ++ p')) := by
  rcases List.append_eq_append_iff.1 h with ⟨r, rfl, hr⟩ | ⟨r, rfl, rfl⟩
  · rcases List.append_eq_append_iff.1 hr with ⟨s, rfl, rfl⟩ | ⟨s, rfl, rfl⟩
    · exact .inr (.inr ⟨s, rfl, rfl⟩)
    · exact .inr (.inl ⟨r, s, rfl, rfl, rfl⟩)
  · exact .inl ⟨r, rfl, rfl⟩

theorem endsWithLabel_append {p q : List Node} (hq : q ≠ []) : EndsWithLabel (p ++ q) ↔ EndsWithLabel q := by
  rcases List.eq_nil_or_concat q with rfl | ⟨q', x, rfl⟩
  · exact (hq rfl).elim
  · simp only [List.concat_eq_append]
    constructor
    · rintro ⟨r, loc, nm, h⟩
      rw [← List.append_assoc] at h
      obtain ⟨_, h⟩ := List.append_inj' h rfl
      exact ⟨q', loc, nm, by rw [h]⟩
    · rintro ⟨r, loc, nm, h⟩
      exact ⟨p ++ r, loc, nm, by rw [h]; simp⟩

theorem not_endsWithLabel_pair {p : List Node} : ¬ EndsWithLabel (p ++ constantPair l l' name en args) := by
  rw [endsWithLabel_append (by simp)]
  rintro ⟨r, loc, nm, h⟩
  have := congrArg List.getLast? h
  simp at this

theorem pair_clean (hm : DirectiveMeans en args (.equ v)) (hsplit : EndsWithLabel A → ∀ c, ¬ ConstantNext B c) :
    Clean (A ++ (constantPair l l' name en args ++ B)) ↔ name ∉ labelNames (A ++ B) ∧ Clean (A ++ B) := by
  rw [clean_iff, clean_iff]
  have hd : DirectivesOk (A ++ (constantPair l l' name en args ++ B)) ↔ DirectivesOk (A ++ B) := by
    constructor
    · intro h loc nm ar hmem
      refine h loc nm ar ?_
      simp only [List.mem_append] at hmem ⊢
      exact hmem.imp_right .inr
    · intro h loc nm ar hmem
      simp only [List.mem_append] at hmem
      rcases hmem with hmem | hmem | hmem
      · exact h loc nm ar (List.mem_append_left _ hmem)
      · simp at hmem
        obtain ⟨rfl, rfl, rfl⟩ := hmem
        exact ⟨_, hm⟩
      · exact h loc nm ar (List.mem_append_right _ hmem)
  have hc : ConstantsOk (A ++ (constantPair l l' name en args ++ B)) ↔ ConstantsOk (A ++ B) := by
    constructor
    · intro h p q c hpq hcn
      rcases prefix_three (C := []) (by simpa using hpq) with ⟨q', rfl, rfl⟩ | ⟨p', q', hC, rfl, rfl⟩ | ⟨p', rfl, rfl⟩
      · cases q' with
        | nil =>
          -- the boundary: the constant begins `B`
          have h2 := h (p ++ constantPair l l' name en args) B c (by simp) (by simpa using hcn)
          exact (not_endsWithLabel_pair h2).elim
        | cons n q' =>
          refine h p (n :: (q' ++ (constantPair l l' name en args ++ B))) c (by simp) ?_
          cases hcn with
          | intro h => exact .intro h
      · simp at hC
        obtain ⟨rfl, rfl⟩ := hC
        have h2 := h (A ++ constantPair l l' name en args) B c (by simp) (by simpa using hcn)
        exact (not_endsWithLabel_pair h2).elim
      · have h2 := h (A ++ (constantPair l l' name en args ++ p')) q c (by simp) hcn
        cases p' with
        | nil =>
          rw [List.append_nil] at h2
          exact (not_endsWithLabel_pair h2).elim
        | cons n p' =>
          rw [← List.append_assoc] at h2
          simp only [List.nil_append]
          exact (endsWithLabel_append (by simp)).2 ((endsWithLabel_append (by simp)).1 h2)
    · intro h p q c hpq hcn
      rcases prefix_three hpq with ⟨q', rfl, rfl⟩ | ⟨p', q', hC, rfl, rfl⟩ | ⟨p', rfl, rfl⟩
      · cases q' with
        | nil => exact (not_constantNext_pair (by simpa using hcn)).elim
        | cons n q' =>
          refine h p (n :: (q' ++ B)) c (by simp) ?_
          cases hcn with
          | intro h => exact .intro h
      · cases p' with
        | nil =>
          simp at hC
          subst hC
          cases hcn
        | cons x p' =>
          simp at hC
          obtain ⟨rfl, hC⟩ := hC
          cases p' with
          | nil => exact ⟨A, l, name, rfl⟩
          | cons y p' =>
            simp at hC
            obtain ⟨rfl, rfl, rfl⟩ := hC
            have h2 := h A B c rfl (by simpa using hcn)
            exact (hsplit h2 c (by simpa using hcn)).elim
      · cases p' with
        | nil =>
          have h2 := h A q c rfl hcn
          exact (hsplit h2 c hcn).elim
        | cons n p' =>
          have h2 := h (A ++ n :: p') q c (by simp) hcn
          rw [← List.append_assoc]
          exact (endsWithLabel_append (by simp)).2 ((endsWithLabel_append (by simp)).1 h2)
  have hn : (labelNames (A ++ (constantPair l l' name en args ++ B))).Nodup ↔
      name ∉ labelNames (A ++ B) ∧ (labelNames (A ++ B)).Nodup := by
    simp only [labelNames_append, constantPair, labelNames]
    rw [List.singleton_append, List.perm_middle.nodup_iff, List.nodup_cons]
  have hf : FitsMemory (A ++ (constantPair l l' name en args ++ B)) ↔ FitsMemory (A ++ B) := by
    constructor
    · intro h p q a hpq hr
      rcases prefix_three (C := []) (by simpa using hpq) with ⟨q', rfl, rfl⟩ | ⟨p', q', hC, rfl, rfl⟩ | ⟨p', rfl, rfl⟩
      · exact h p (q' ++ (constantPair l l' name en args ++ B)) a (by simp) hr
      · simp at hC
        obtain ⟨rfl, rfl⟩ := hC
        exact h A _ a rfl (by simpa using hr)
      · exact h (A ++ (constantPair l l' name en args ++ p')) q a (by simp) ((pair_reaches hm).2 (by simpa using hr))
    · intro h p q a hpq hr
      rcases prefix_three hpq with ⟨q', rfl, rfl⟩ | ⟨p', q', hC, rfl, rfl⟩ | ⟨p', rfl, rfl⟩
      · exact h p (q' ++ B) a (by simp) hr
      · refine h A B a rfl ?_
        obtain ⟨b, h1, h2⟩ := reaches_append.1 hr
        have : Reaches p' b b := by
          cases p' with
          | nil => exact .nil
          | cons x p' =>
            simp at hC
            obtain ⟨rfl, hC⟩ := hC
            cases p' with
            | nil => exact .cons .label .nil
            | cons y p' =>
              simp at hC
              obtain ⟨rfl, rfl, rfl⟩ := hC
              exact .cons .label (.cons (.equ hm) .nil)
        cases reaches_unique h2 this
        exact h1
      · exact h (A ++ p') q a (by simp) ((pair_reaches hm).1 hr)
  rw [hd, hc, hn, hf]
  constructor
  · rintro ⟨h1, h2, ⟨h3, h4⟩, h5⟩
    exact ⟨h3, h1, h2, h4, h5⟩
  · rintro ⟨h3, h1, h2, h4, h5⟩
    exact ⟨h1, h2, ⟨h3, h4⟩, h5⟩

theorem pair_assemble (hm : DirectiveMeans en args (.equ v)) (hsplit : EndsWithLabel A → ∀ c, ¬ ConstantNext B c)
    {ranges : List DataRange} :
    assemble (A ++ (constantPair l l' name en args ++ B)) = .ret (.ok ranges) ↔
      name ∉ labelNames (A ++ B) ∧ Clean (A ++ B) ∧ ∃ (labels : LabelMap) (secs : List DataRange),
        (∀ nm u, labels.get nm = some u ↔ (nm = name ∧ u = v) ∨ LabelValue (A ++ B) nm u) ∧
        Sections labels 0 (A ++ B) secs ∧ ranges = nonEmpty secs := by
  rw [assemble_ok_iff]
  simp only [pair_clean hm hsplit, LabelsOf, pair_labelValue hm hsplit, pair_emits hm]
  constructor
  · rintro ⟨labels, secs, ⟨h1, h2⟩, h3, h4, h5⟩
    exact ⟨h1, h2, labels, secs, h3, h4, h5⟩
  · rintro ⟨h1, h2, labels, secs, h3, h4, h5⟩
    exact ⟨labels, secs, ⟨h1, h2⟩, h3, h4, h5⟩

end Constant

/-! ### Sections -/

theorem startsWithOrg_append {s t : List Node} (h : StartsWithOrg s) : StartsWithOrg (s ++ t) := by
  obtain ⟨loc, name, args, v, body, hm, rfl⟩ := h
  exact ⟨loc, name, args, v, body ++ t, hm, rfl⟩

theorem not_constantNext_org {s : List Node} (h : StartsWithOrg s) (c : U12) : ¬ ConstantNext s c := by
  obtain ⟨loc, name, args, v, body, hm, rfl⟩ := h
  intro hc
  cases hc with
  | intro hc => cases means_unique hm hc

theorem reaches_org {p : List Node} (hp : StartsWithOrg p) {a b c : Nat} : Reaches p a c ↔ Reaches p b c := by
  obtain ⟨loc, name, args, v, body, hm, rfl⟩ := hp
  constructor
  · intro h
    cases h with
    | cons h1 h2 =>
      cases moves_unique h1 (.org hm)
      exact .cons (.org hm) h2
  · intro h
    cases h with
    | cons h1 h2 =>
      cases moves_unique h1 (.org hm)
      exact .cons (.org hm) h2

/-- What follows: nothing, or statements that begin with an `.org`. -/
def Boundary (t : List Node) : Prop := t = [] ∨ StartsWithOrg t

theorem boundary_flatten {blocks : List (List Node)} (h : ∀ s ∈ blocks, StartsWithOrg s) : Boundary blocks.flatten := by
  cases blocks with
  | nil => exact .inl rfl
  | cons s blocks => exact .inr (startsWithOrg_append (h s List.mem_cons_self))

theorem constantNext_boundary {s t : List Node} (ht : Boundary t) {c : U12} : ConstantNext (s ++ t) c ↔ ConstantNext s c := by
  refine ⟨fun h => ?_, constantNext_append⟩
  cases s with
  | nil =>
    rcases ht with rfl | ht
    · exact h
    · exact (not_constantNext_org ht c h).elim
  | cons n s =>
    cases h with
    | intro h => exact .intro h

theorem reaches_after {s p : List Node} (hs : DirectivesOk s) (hp : StartsWithOrg p) {c : Nat} :
    Reaches (s ++ p) 0 c ↔ Reaches p 0 c := by
  rw [reaches_append]
  constructor
  · rintro ⟨b, _, h⟩
    exact (reaches_org hp).1 h
  · intro h
    obtain ⟨b, hb⟩ := reaches_exists hs 0
    exact ⟨b, hb, (reaches_org hp).1 h⟩

/-- A proper prefix of statements beginning with an `.org`, followed by a label, itself begins with it. -/
theorem org_before_label {t p q : List Node} {loc : Loc} {nm : Str} (ht : Boundary t) (h : t = p ++ .label loc nm :: q) :
    StartsWithOrg p := by
  rcases ht with rfl | ⟨l, name, args, v, body, hm, rfl⟩
  · simp at h
  · cases p with
    | nil => simp at h
    | cons n p =>
      simp at h
      obtain ⟨rfl, rfl⟩ := h
      exact ⟨l, name, args, v, p, hm, rfl⟩

theorem labelValue_boundary {s t : List Node} (hs : DirectivesOk s) (ht : Boundary t) {nm : Str} {u : U12} :
    LabelValue (s ++ t) nm u ↔ LabelValue s nm u ∨ LabelValue t nm u := by
  simp only [labelValue_iff]
  constructor
  · rintro ⟨p, loc, q, h, hv⟩
    rcases split_three (C := []) (by simpa using h) with ⟨q', rfl, rfl⟩ | ⟨p', q', hC, _⟩ | ⟨p', rfl, rfl⟩
    · refine .inl ⟨p, loc, q', rfl, ?_⟩
      simpa [ValueHere, constantNext_boundary ht] using hv
    · simp at hC
    · refine .inr ⟨p', loc, q, rfl, ?_⟩
      simpa [ValueHere, reaches_after hs (org_before_label ht rfl)] using hv
  · rintro (⟨p, loc, q, rfl, hv⟩ | ⟨p, loc, q, rfl, hv⟩)
    · refine ⟨p, loc, q ++ t, by simp, ?_⟩
      simpa [ValueHere, constantNext_boundary ht] using hv
    · refine ⟨s ++ p, loc, q, by simp, ?_⟩
      simpa [ValueHere, reaches_after hs (org_before_label ht rfl)] using hv

theorem labelValue_flatten {blocks : List (List Node)} (ho : ∀ s ∈ blocks, StartsWithOrg s)
    (hd : ∀ s ∈ blocks, DirectivesOk s) {nm : Str} {u : U12} :
    LabelValue blocks.flatten nm u ↔ ∃ s ∈ blocks, LabelValue s nm u := by
  induction blocks with
  | nil => simp [labelValue_iff]
  | cons s blocks ih =>
    have ho' : ∀ s ∈ blocks, StartsWithOrg s := fun t ht => ho t (List.mem_cons_of_mem _ ht)
    rw [List.flatten_cons, labelValue_boundary (hd s List.mem_cons_self) (boundary_flatten ho'),
      ih ho' fun t ht => hd t (List.mem_cons_of_mem _ ht)]
    simp

theorem labelNames_flatten (blocks : List (List Node)) :
    labelNames blocks.flatten = blocks.flatMap labelNames := by
  induction blocks with
  | nil => rfl
  | cons s blocks ih => rw [List.flatten_cons, labelNames_append, ih, List.flatMap_cons]

theorem directives_flatten {blocks : List (List Node)} : DirectivesOk blocks.flatten ↔ ∀ s ∈ blocks, DirectivesOk s := by
  simp only [DirectivesOk, List.mem_flatten]
  constructor
  · intro h s hs loc name args hm
    exact h loc name args ⟨s, hs, hm⟩
  · rintro h loc name args ⟨s, hs, hm⟩
    exact h s hs loc name args hm

theorem constants_boundary {s t : List Node} (ht : Boundary t) : ConstantsOk (s ++ t) ↔ ConstantsOk s ∧ ConstantsOk t := by
  constructor
  · intro h
    refine ⟨fun p q c hpq hc => h p (q ++ t) c (by rw [hpq]; simp) (constantNext_append hc), ?_⟩
    rintro p q c rfl hc
    have h2 := h (s ++ p) q c (by simp) hc
    cases p with
    | nil =>
      rcases ht with ht | ht
      · simp at ht
        subst ht
        cases hc
      · exact (not_constantNext_org ht c hc).elim
    | cons n p => exact (endsWithLabel_append (by simp)).1 h2
  · rintro ⟨h1, h2⟩ p q c hpq hc
    rcases List.append_eq_append_iff.1 hpq with ⟨r, rfl, rfl⟩ | ⟨r, rfl, rfl⟩
    · cases r with
      | nil =>
        rcases ht with ht | ht
        · simp at ht
          subst ht
          cases hc
        · exact (not_constantNext_org ht c hc).elim
      | cons n r => exact (endsWithLabel_append (by simp)).2 (h2 (n :: r) q c rfl hc)
    · exact h1 p r c rfl ((constantNext_boundary ht).1 hc)

theorem constants_flatten {blocks : List (List Node)} (ho : ∀ s ∈ blocks, StartsWithOrg s) :
    ConstantsOk blocks.flatten ↔ ∀ s ∈ blocks, ConstantsOk s := by
  induction blocks with
  | nil =>
    simp only [List.flatten_nil, List.not_mem_nil, false_imp_iff, implies_true, iff_true]
    intro p q c hpq hc
    obtain ⟨rfl, rfl⟩ := List.append_eq_nil_iff.1 hpq.symm
    cases hc
  | cons s blocks ih =>
    have ho' : ∀ s ∈ blocks, StartsWithOrg s := fun t ht => ho t (List.mem_cons_of_mem _ ht)
    rw [List.flatten_cons, constants_boundary (boundary_flatten ho'), ih ho']
    simp

theorem fits_boundary {s t : List Node} (hs : DirectivesOk s) (ht : Boundary t) :
    FitsMemory (s ++ t) ↔ FitsMemory s ∧ FitsMemory t := by
  have ho : ∀ n p q, t = n :: p ++ q → StartsWithOrg (n :: p) := by
    intro n p q h
    rcases ht with rfl | ⟨l, name, args, v, body, hm, rfl⟩
    · simp at h
    · simp at h
      obtain ⟨rfl, rfl⟩ := h
      exact ⟨l, name, args, v, p, hm, rfl⟩
  constructor
  · intro h
    refine ⟨fun p q a hpq hr => h p (q ++ t) a (by rw [hpq]; simp) hr, fun p q a hpq hr => ?_⟩
    cases p with
    | nil =>
      cases hr
      omega
    | cons n p => exact h (s ++ n :: p) q a (by rw [hpq]; simp) ((reaches_after hs (ho n p q hpq)).2 hr)
  · rintro ⟨h1, h2⟩ p q a hpq hr
    rcases List.append_eq_append_iff.1 hpq with ⟨r, rfl, hr'⟩ | ⟨r, rfl, rfl⟩
    · cases r with
      | nil => exact h1 s [] a (by simp) (by simpa using hr)
      | cons n r => exact h2 (n :: r) q a hr' ((reaches_after hs (ho n r q hr')).1 hr)
    · exact h1 p r a rfl hr

theorem fits_flatten {blocks : List (List Node)} (ho : ∀ s ∈ blocks, StartsWithOrg s)
    (hd : ∀ s ∈ blocks, DirectivesOk s) : FitsMemory blocks.flatten ↔ ∀ s ∈ blocks, FitsMemory s := by
  induction blocks with
  | nil =>
    simp only [List.flatten_nil, List.not_mem_nil, false_imp_iff, implies_true, iff_true]
    intro p q a hpq hr
    obtain ⟨rfl, rfl⟩ := List.append_eq_nil_iff.1 hpq.symm
    cases hr
    omega
  | cons s blocks ih =>
    have ho' : ∀ s ∈ blocks, StartsWithOrg s := fun t ht => ho t (List.mem_cons_of_mem _ ht)
    have hd' : ∀ s ∈ blocks, DirectivesOk s := fun t ht => hd t (List.mem_cons_of_mem _ ht)
    rw [List.flatten_cons, fits_boundary (hd s List.mem_cons_self) (boundary_flatten ho'), ih ho' hd']
    simp

theorem clean_flatten {blocks : List (List Node)} (ho : ∀ s ∈ blocks, StartsWithOrg s) :
    Clean blocks.flatten ↔ (∀ s ∈ blocks, DirectivesOk s) ∧ (∀ s ∈ blocks, ConstantsOk s) ∧
      (blocks.flatMap labelNames).Nodup ∧ ∀ s ∈ blocks, FitsMemory s := by
  rw [clean_iff, directives_flatten, constants_flatten ho, labelNames_flatten]
  constructor
  · rintro ⟨h1, h2, h3, h4⟩
    exact ⟨h1, h2, h3, (fits_flatten ho h1).1 h4⟩
  · rintro ⟨h1, h2, h3, h4⟩
    exact ⟨h1, h2, h3, (fits_flatten ho h1).2 h4⟩

theorem clean_perm {blocks blocks' : List (List Node)} (hp : blocks.Perm blocks') (ho : ∀ s ∈ blocks, StartsWithOrg s)
    (h : Clean blocks.flatten) : Clean blocks'.flatten := by
  have ho' : ∀ s ∈ blocks', StartsWithOrg s := fun s hs => ho s (hp.mem_iff.2 hs)
  obtain ⟨h1, h2, h3, h4⟩ := (clean_flatten ho).1 h
  exact (clean_flatten ho').2 ⟨fun s hs => h1 s (hp.mem_iff.2 hs), fun s hs => h2 s (hp.mem_iff.2 hs),
    (hp.flatMap_right _).nodup_iff.1 h3, fun s hs => h4 s (hp.mem_iff.2 hs)⟩

theorem labelValue_perm {blocks blocks' : List (List Node)} (hp : blocks.Perm blocks')
    (ho : ∀ s ∈ blocks, StartsWithOrg s) (h : Clean blocks.flatten) {nm : Str} {u : U12} :
    LabelValue blocks.flatten nm u ↔ LabelValue blocks'.flatten nm u := by
  have h1 := ((clean_flatten ho).1 h).1
  rw [labelValue_flatten ho h1, labelValue_flatten (fun s hs => ho s (hp.mem_iff.2 hs))
    (fun s hs => h1 s (hp.mem_iff.2 hs))]
  simp only [hp.mem_iff]

/-- The non-empty sections of statements beginning with an `.org`. -/
def BlockRanges (labels : LabelMap) (s : List Node) (ranges : List DataRange) : Prop :=
  ∃ secs, Sections labels 0 s secs ∧ ranges = nonEmpty secs

theorem nonEmpty_append (p q : List DataRange) : nonEmpty (p ++ q) = nonEmpty p ++ nonEmpty q := by
  simp [nonEmpty]

/-- The sections of `s ++ t` when `t` begins with an `.org` (or is empty). -/
theorem sections_boundary {labels : LabelMap} {s t : List Node} (ht : StartsWithOrg t) {start : U12}
    {ranges : List DataRange} :
    (∃ secs, Sections labels start (s ++ t) secs ∧ ranges = nonEmpty secs) ↔
      ∃ s1 s2, Sections labels start s s1 ∧ Sections labels 0 t s2 ∧ ranges = nonEmpty s1 ++ nonEmpty s2 := by
  obtain ⟨loc, name, args, v, body, hm, rfl⟩ := ht
  have key : ∀ secs, Sections labels start (s ++ .directive loc name args :: body) secs ↔
      ∃ s1 s2, Sections labels start s s1 ∧ Sections labels v body s2 ∧ secs = s1 ++ s2 := by
    induction s generalizing start with
    | nil =>
      intro secs
      constructor
      · intro h
        cases h with
        | org ho h =>
          cases means_unique ho hm
          exact ⟨_, _, .nil, h, rfl⟩
        | emit he _ => exact (emits_not_org he hm).elim
      · rintro ⟨s1, s2, h1, h2, rfl⟩
        cases h1
        exact .org hm h2
    | cons n s ih =>
      intro secs
      constructor
      · intro h
        cases h with
        | org ho h =>
          obtain ⟨s1, s2, h1, h2, rfl⟩ := (ih _).1 h
          exact ⟨_, s2, .org ho h1, h2, rfl⟩
        | emit he h =>
          obtain ⟨s1, s2, h1, h2, e⟩ := (ih _).1 h
          obtain ⟨d, r, rfl⟩ := sections_head h1
          simp at e
          obtain ⟨rfl, rfl⟩ := e
          exact ⟨_, s2, .emit he h1, h2, rfl⟩
      · rintro ⟨s1, s2, h1, h2, rfl⟩
        cases h1 with
        | org ho h1 => exact .org ho ((ih _).2 ⟨_, s2, h1, h2, rfl⟩)
        | emit he h1 => exact .emit he ((ih _).2 ⟨_, s2, h1, h2, rfl⟩)
  constructor
  · rintro ⟨secs, h, rfl⟩
    obtain ⟨s1, s2, h1, h2, rfl⟩ := (key _).1 h
    refine ⟨s1, ⟨0, []⟩ :: s2, h1, .org hm h2, ?_⟩
    rw [nonEmpty_append, nonEmpty_cons ⟨0, []⟩]
    simp [nonEmpty]
  · rintro ⟨s1, s2, h1, h2, rfl⟩
    cases h2 with
    | org ho h2 =>
      cases means_unique ho hm
      refine ⟨_, (key _).2 ⟨s1, _, h1, h2, rfl⟩, ?_⟩
      rw [nonEmpty_append, nonEmpty_cons ⟨0, []⟩]
      simp [nonEmpty]
    | emit he _ => exact (emits_not_org he hm).elim

/-- The ranges of blocks: those of each, in order. -/
inductive BlocksRanges (labels : LabelMap) : List (List Node) → List DataRange → Prop where
  | nil : BlocksRanges labels [] []
  | cons {s : List Node} {r rs : List DataRange} {blocks : List (List Node)} :
    BlockRanges labels s r → BlocksRanges labels blocks rs → BlocksRanges labels (s :: blocks) (r ++ rs)

theorem blocks_flatten {labels : LabelMap} {blocks : List (List Node)} (ho : ∀ s ∈ blocks, StartsWithOrg s)
    {ranges : List DataRange} : BlockRanges labels blocks.flatten ranges ↔ BlocksRanges labels blocks ranges := by
  induction blocks generalizing ranges with
  | nil =>
    constructor
    · rintro ⟨secs, h, rfl⟩
      cases h
      exact .nil
    · intro h
      cases h
      exact ⟨_, .nil, rfl⟩
  | cons s blocks ih =>
    have ho' : ∀ s ∈ blocks, StartsWithOrg s := fun t ht => ho t (List.mem_cons_of_mem _ ht)
    rw [List.flatten_cons]
    cases blocks with
    | nil =>
      simp only [List.flatten_nil, List.append_nil]
      constructor
      · intro h
        have := BlocksRanges.cons h .nil
        rwa [List.append_nil] at this
      · intro h
        cases h with
        | cons h1 h2 =>
          cases h2
          rwa [List.append_nil]
    | cons t blocks =>
      have ht : StartsWithOrg (t :: blocks).flatten := startsWithOrg_append (ho' t List.mem_cons_self)
      unfold BlockRanges at *
      rw [sections_boundary ht]
      constructor
      · rintro ⟨s1, s2, h1, h2, rfl⟩
        exact .cons ⟨s1, h1, rfl⟩ ((ih ho').1 ⟨s2, h2, rfl⟩)
      · intro h
        cases h with
        | cons h1 h2 =>
          obtain ⟨s1, h1, rfl⟩ := h1
          obtain ⟨s2, h3, rfl⟩ := (ih ho').2 h2
          exact ⟨s1, s2, h1, h3, rfl⟩

theorem blocks_perm {labels : LabelMap} {blocks blocks' : List (List Node)} (hp : blocks.Perm blocks')
    {ranges : List DataRange} (h : BlocksRanges labels blocks ranges) :
    ∃ ranges', BlocksRanges labels blocks' ranges' ∧ ranges.Perm ranges' := by
  induction hp generalizing ranges with
  | nil => exact ⟨ranges, h, .refl _⟩
  | cons s _ ih =>
    cases h with
    | cons h1 h2 =>
      obtain ⟨rs, h3, h4⟩ := ih h2
      exact ⟨_, .cons h1 h3, h4.append_left _⟩
  | swap s t blocks =>
    cases h with
    | cons h1 h2 =>
      cases h2 with
      | cons h2 h3 =>
        refine ⟨_, .cons h2 (.cons h1 h3), ?_⟩
        rw [← List.append_assoc, ← List.append_assoc]
        exact List.perm_append_comm.append_right _
  | trans _ _ ih1 ih2 =>
    obtain ⟨r1, h1, p1⟩ := ih1 h
    obtain ⟨r2, h2, p2⟩ := ih2 h1
    exact ⟨r2, h2, p1.trans p2⟩

theorem assemble_perm {blocks blocks' : List (List Node)} (hp : blocks.Perm blocks')
    (ho : ∀ s ∈ blocks, StartsWithOrg s) {ranges : List DataRange} (h : assemble blocks.flatten = .ret (.ok ranges)) :
    ∃ ranges', assemble blocks'.flatten = .ret (.ok ranges') ∧ ranges.Perm ranges' := by
  obtain ⟨labels, secs, hc, hl, hs, rfl⟩ := assemble_ok_iff.1 h
  have ho' : ∀ s ∈ blocks', StartsWithOrg s := fun s hs => ho s (hp.mem_iff.2 hs)
  obtain ⟨ranges', h1, h2⟩ := blocks_perm hp ((blocks_flatten ho).1 ⟨secs, hs, rfl⟩)
  obtain ⟨secs', hs', rfl⟩ := (blocks_flatten ho').2 h1
  refine ⟨_, assemble_ok_iff.2 ⟨labels, secs', clean_perm hp ho hc, ?_, hs', rfl⟩, h2⟩
  intro nm u
  rw [← labelValue_perm hp ho hc]
  exact hl nm u

end C8S
