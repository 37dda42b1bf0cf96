import Verif.Proofs.Rewrite

/- Lemmas on adding labels, joining programs and moving sections (C60 to C62). -/

namespace C8S

open Spec

/-! ### Label maps that agree on the names in use -/

theorem denotes_agree {L L' : LabelMap} {x : Field} {n : Nat} (hx : ∀ s, x = .identifier s → L'.get s = L.get s)
    (h : Denotes L x n) : Denotes L' x n := by
  cases h with
  | literal v => exact .literal v
  | label h => exact .label ((hx _ rfl).trans h)

theorem fitsAll_agree {L L' : LabelMap} {v : Vars} {slots : List Slot} {fs : List Field}
    (hx : ∀ s, .identifier s ∈ fs → L'.get s = L.get s) (h : FitsAll L v slots fs) : FitsAll L' v slots fs := by
  induction h with
  | nil => exact .nil
  | cons h0 _ ih =>
    refine .cons ?_ (ih fun s hs => hx s (List.mem_cons_of_mem _ hs))
    rename_i x _ _ _
    have hx : ∀ s, x = .identifier s → L'.get s = L.get s := fun s e => hx s (e ▸ List.mem_cons_self)
    cases h0 with
    | nn hd hle => exact .nn (denotes_agree hx hd) hle
    | n hd hle => exact .n (denotes_agree hx hd) hle
    | addr hd => exact .addr (denotes_agree hx hd)
    | vx h1 h2 => exact .vx h1 h2
    | vy h1 h2 => exact .vy h1 h2
    | v0 => exact .v0
    | i => exact .i
    | indI => exact .indI
    | dt => exact .dt
    | st => exact .st
    | k => exact .k
    | f => exact .f
    | b => exact .b

/-- The maps give the same value to every label that an instruction uses. -/
def SameUses (ns : List Node) (L L' : LabelMap) : Prop :=
  ∀ l m fs s, .instruction l m fs ∈ ns → .identifier s ∈ fs → L'.get s = L.get s

theorem emits_agree {L L' : LabelMap} {n : Node} {bytes : List U8} (hu : SameUses [n] L L') (h : Emits L n bytes) :
    Emits L' n bytes := by
  cases h with
  | db h => exact .db h
  | equ h => exact .equ h
  | label => exact .label
  | instruction h =>
    obtain ⟨row, hr, v, h1, h2, h3, h4⟩ := h
    exact .instruction ⟨row, hr, v, h1, fitsAll_agree (fun s hs => hu _ _ _ s List.mem_cons_self hs) h2, h3, h4⟩

theorem sections_agree {L L' : LabelMap} {start : U12} {ns : List Node} {secs : List DataRange} (hu : SameUses ns L L')
    (h : Sections L start ns secs) : Sections L' start ns secs := by
  induction h with
  | nil => exact .nil
  | org hd _ ih => exact .org hd (ih fun l m fs s hm => hu l m fs s (List.mem_cons_of_mem _ hm))
  | emit he _ ih =>
    refine .emit (emits_agree ?_ he) (ih fun l m fs s hm => hu l m fs s (List.mem_cons_of_mem _ hm))
    intro l m fs s hm
    rw [List.mem_singleton] at hm
    exact hu l m fs s (hm ▸ List.mem_cons_self)

/-! ### A label more or less -/

section
variable {A B : List Node} {l : Loc} {name : Str}

theorem label_reaches {p : List Node} {a c : Nat} : Reaches (A ++ ([.label l name] ++ p)) a c ↔ Reaches (A ++ p) a c := by
  simp only [reaches_append]
  constructor
  · rintro ⟨b, h1, b', h2, h3⟩
    have : Reaches [.label l name] b b := .cons .label .nil
    cases reaches_unique h2 this
    exact ⟨_, h1, h3⟩
  · rintro ⟨b, h1, h3⟩
    exact ⟨b, h1, b, .cons .label .nil, h3⟩

theorem label_sections {L : LabelMap} {start : U12} {secs : List DataRange} :
    Sections L start (A ++ ([.label l name] ++ B)) secs ↔ Sections L start (A ++ B) secs := by
  induction A generalizing start secs with
  | nil =>
    simp only [List.nil_append, List.cons_append]
    constructor
    · intro h
      cases h with
      | emit he h => cases he; exact h
    · intro h
      obtain ⟨d, r, rfl⟩ := sections_head h
      exact .emit (bytes := []) .label h
  | cons n A ih =>
    constructor
    · intro h
      cases h with
      | org ho h => exact .org ho (ih.1 h)
      | emit he h => exact .emit he (ih.1 h)
    · intro h
      cases h with
      | org ho h => exact .org ho (ih.2 h)
      | emit he h => exact .emit he (ih.2 h)

theorem label_constantNext (hB : ∀ c, ¬ ConstantNext B c) {q : List Node} {c : U12} :
    ConstantNext (q ++ ([.label l name] ++ B)) c ↔ ConstantNext (q ++ B) c := by
  cases q with
  | nil =>
    refine ⟨fun h => ?_, fun h => (hB c h).elim⟩
    cases h
  | cons n q =>
    constructor <;> intro h <;> cases h with | intro h => exact .intro h

theorem label_value (hB : ∀ c, ¬ ConstantNext B c) {nm : Str} (hn : nm ≠ name) {u : U12} :
    LabelValue (A ++ ([.label l name] ++ B)) nm u ↔ LabelValue (A ++ B) nm u := by
  simp only [labelValue_iff]
  constructor
  · rintro ⟨p, loc, q, e, hv⟩
    rcases split_three e with ⟨q', rfl, rfl⟩ | ⟨p', q', e', _⟩ | ⟨p', rfl, rfl⟩
    · refine ⟨p, loc, q' ++ B, by simp, ?_⟩
      unfold ValueHere at hv ⊢
      simpa only [label_constantNext hB] using hv
    · cases p' with
      | nil => cases e'; exact (hn rfl).elim
      | cons _ _ => simp at e'
    · refine ⟨A ++ p', loc, q, by simp, ?_⟩
      unfold ValueHere at hv ⊢
      simpa only [label_reaches] using hv
  · rintro ⟨p, loc, q, e, hv⟩
    rcases split_three (C := []) (by simpa using e) with ⟨q', rfl, rfl⟩ | ⟨p', q', e', _⟩ | ⟨p', rfl, rfl⟩
    · refine ⟨p, loc, q' ++ ([.label l name] ++ B), by simp, ?_⟩
      unfold ValueHere at hv ⊢
      simpa only [label_constantNext hB, List.nil_append] using hv
    · simp at e'
    · refine ⟨A ++ ([.label l name] ++ p'), loc, q, by simp, ?_⟩
      unfold ValueHere at hv ⊢
      simpa only [label_reaches, List.nil_append] using hv

theorem label_clean (hB : ∀ c, ¬ ConstantNext B c) :
    Clean (A ++ ([.label l name] ++ B)) ↔ name ∉ labelNames (A ++ B) ∧ Clean (A ++ B) := by
  rw [clean_iff, clean_iff]
  have hd : DirectivesOk (A ++ ([.label l name] ++ B)) ↔ DirectivesOk (A ++ B) := by
    simp [DirectivesOk]
  have hn : (labelNames (A ++ ([.label l name] ++ B))).Nodup ↔ name ∉ labelNames (A ++ B) ∧ (labelNames (A ++ B)).Nodup := by
    have : labelNames ([.label l name] ++ B) = name :: labelNames B := rfl
    rw [labelNames_append A, this, labelNames_append A]
    exact (List.perm_middle.nodup_iff).trans List.nodup_cons
  have hc : ConstantsOk (A ++ ([.label l name] ++ B)) ↔ ConstantsOk (A ++ B) := by
    constructor
    · intro h p q c e hq
      rcases prefix_three (C := []) (by simpa using e) with ⟨q', rfl, rfl⟩ | ⟨p', q', e', rfl, rfl⟩ | ⟨p', rfl, rfl⟩
      · rw [List.nil_append] at hq
        exact h p (q' ++ ([.label l name] ++ B)) c (by simp) ((label_constantNext hB).2 hq)
      · simp only [List.nil_eq, List.append_eq_nil_iff] at e'
        obtain ⟨rfl, rfl⟩ := e'
        exact (hB c hq).elim
      · have := h (A ++ ([.label l name] ++ p')) q c (by simp) hq
        by_cases hp : p' = []
        · subst hp
          exact (hB c hq).elim
        · rw [← List.append_assoc, endsWithLabel_append hp] at this
          rw [List.nil_append, endsWithLabel_append hp]
          exact this
    · intro h p q c e hq
      rcases prefix_three e with ⟨q', rfl, rfl⟩ | ⟨p', q', e', rfl, rfl⟩ | ⟨p', rfl, rfl⟩
      · exact h p (q' ++ B) c (by simp) ((label_constantNext hB).1 hq)
      · cases p' with
        | nil =>
          rw [List.nil_append] at e'
          subst e'
          cases hq
        | cons _ _ =>
          simp at e'
          obtain ⟨rfl, rfl, rfl⟩ := e'
          exact (hB c hq).elim
      · have := h (A ++ p') q c (by simp) hq
        by_cases hp : p' = []
        · subst hp
          exact ⟨A, l, name, by simp⟩
        · rw [endsWithLabel_append hp] at this
          rw [← List.append_assoc, endsWithLabel_append hp]
          exact this
  have hf : FitsMemory (A ++ ([.label l name] ++ B)) ↔ FitsMemory (A ++ B) := by
    constructor
    · intro h p q a e hr
      rcases prefix_three (C := []) (by simpa using e) with ⟨q', rfl, rfl⟩ | ⟨p', q', e', rfl, rfl⟩ | ⟨p', rfl, rfl⟩
      · exact h p (q' ++ ([.label l name] ++ B)) a (by simp) hr
      · simp only [List.nil_eq, List.append_eq_nil_iff] at e'
        obtain ⟨rfl, rfl⟩ := e'
        exact h A ([.label l name] ++ B) a rfl (by simpa using hr)
      · exact h (A ++ ([.label l name] ++ p')) q a (by simp) (label_reaches.2 (by simpa using hr))
    · intro h p q a e hr
      rcases prefix_three e with ⟨q', rfl, rfl⟩ | ⟨p', q', e', rfl, rfl⟩ | ⟨p', rfl, rfl⟩
      · exact h p (q' ++ B) a (by simp) hr
      · cases p' with
        | nil => exact h A B a rfl (by simpa using hr)
        | cons _ _ =>
          simp at e'
          obtain ⟨rfl, rfl, rfl⟩ := e'
          have := (label_reaches (p := [])).1 (by simpa using hr)
          exact h A B a rfl (by simpa using this)
      · exact h (A ++ p') q a (by simp) (label_reaches.1 hr)
  rw [hd, hc, hn, hf]
  constructor
  · rintro ⟨h1, h2, ⟨h3, h4⟩, h5⟩
    exact ⟨h3, h1, h2, h4, h5⟩
  · rintro ⟨h3, h1, h2, h4, h5⟩
    exact ⟨h1, h2, ⟨h3, h4⟩, h5⟩

theorem label_assemble (hB : ∀ c, ¬ ConstantNext B c)
    (hu : ∀ l' m fs, .instruction l' m fs ∈ A ++ B → .identifier name ∉ fs) {ranges : List DataRange} :
    assemble (A ++ ([.label l name] ++ B)) = .ret (.ok ranges) ↔
      name ∉ labelNames (A ++ B) ∧ assemble (A ++ B) = .ret (.ok ranges) := by
  have hsame : ∀ L L', LabelsOf (A ++ ([.label l name] ++ B)) L → LabelsOf (A ++ B) L' →
      ∀ s, s ≠ name → L'.get s = L.get s := by
    intro L L' h h' s hs
    apply Option.ext
    intro v
    rw [h s v, h' s v, label_value hB hs]
  have huse : ∀ L L', LabelsOf (A ++ ([.label l name] ++ B)) L → LabelsOf (A ++ B) L' → SameUses (A ++ B) L L' :=
    fun L L' h h' l' m fs s hm hs => hsame L L' h h' s fun e => hu l' m fs hm (e ▸ hs)
  have hsym : ∀ {L L' : LabelMap}, SameUses (A ++ B) L L' → SameUses (A ++ B) L' L :=
    fun h l' m fs s hm hs => (h l' m fs s hm hs).symm
  constructor
  · intro h
    obtain ⟨L, secs, hc, hl, hs, rfl⟩ := assemble_ok_iff.1 h
    obtain ⟨h1, h2⟩ := (label_clean hB).1 hc
    obtain ⟨L', hL'⟩ := defineLabels_of_clean h2
    have hl' := (defineLabels_ok hL').2
    exact ⟨h1, assemble_ok_iff.2 ⟨L', secs, h2, hl', sections_agree (huse L L' hl hl') (label_sections.1 hs), rfl⟩⟩
  · rintro ⟨h1, h⟩
    obtain ⟨L', secs, h2, hl', hs, rfl⟩ := assemble_ok_iff.1 h
    have hc := (label_clean (l := l) hB).2 ⟨h1, h2⟩
    obtain ⟨L, hL⟩ := defineLabels_of_clean hc
    have hl := (defineLabels_ok hL).2
    exact assemble_ok_iff.2 ⟨L, secs, hc, hl, label_sections.2 (sections_agree (hsym (huse L L' hl hl')) hs), rfl⟩

end

/-! ### Joining programs -/

theorem assemble_join {p q : List Node} (hq : StartsWithOrg q) (hd : ∀ s, s ∈ labelNames p → s ∉ labelNames q)
    {r1 r2 : List DataRange} (h1 : assemble p = .ret (.ok r1)) (h2 : assemble q = .ret (.ok r2)) :
    assemble (p ++ q) = .ret (.ok (r1 ++ r2)) := by
  obtain ⟨L1, s1, hc1, hl1, hs1, rfl⟩ := assemble_ok_iff.1 h1
  obtain ⟨L2, s2, hc2, hl2, hs2, rfl⟩ := assemble_ok_iff.1 h2
  obtain ⟨a1, a2, a3, a4⟩ := clean_iff.1 hc1
  obtain ⟨b1, b2, b3, b4⟩ := clean_iff.1 hc2
  have hb : Boundary q := .inr hq
  have hc : Clean (p ++ q) := by
    refine clean_iff.2 ⟨?_, (constants_boundary hb).2 ⟨a2, b2⟩, ?_, (fits_boundary a1 hb).2 ⟨a4, b4⟩⟩
    · intro l s xs hm
      rcases List.mem_append.1 hm with hm | hm
      · exact a1 l s xs hm
      · exact b1 l s xs hm
    · rw [labelNames_append]
      exact List.nodup_append.2 ⟨a3, b3, fun s hs t ht e => hd s hs (e ▸ ht)⟩
  obtain ⟨L, hL⟩ := defineLabels_of_clean hc
  have hl := (defineLabels_ok hL).2
  have he1 : ∀ nm u, L1.get nm = some u → L.get nm = some u := fun nm u h =>
    (hl nm u).2 ((labelValue_boundary a1 hb).2 (.inl ((hl1 nm u).1 h)))
  have he2 : ∀ nm u, L2.get nm = some u → L.get nm = some u := fun nm u h =>
    (hl nm u).2 ((labelValue_boundary a1 hb).2 (.inr ((hl2 nm u).1 h)))
  obtain ⟨secs, hs, e⟩ := (sections_boundary hq).2 ⟨s1, s2, sections_extend he1 hs1, sections_extend he2 hs2, rfl⟩
  exact assemble_ok_iff.2 ⟨L, secs, hc, hl, hs, e⟩

/-! ### Moving a section -/

theorem org_letters {s : Str} {xs : List Literal} {v : U12} (h : DirectiveMeans s xs (.org v)) : SameLetters s "org".toList := by
  cases h with
  | org _ h => exact h

theorem noOrg_tail {n : Node} {ns : List Node} (h : NoOrg (n :: ns)) : NoOrg ns :=
  fun l s xs hm => h l s xs (List.mem_cons_of_mem _ hm)

theorem noOrg_reaches {ns : List Node} (hn : NoOrg ns) {a b : Nat} (h : Reaches ns a b) :
    ∃ k, b = a + k ∧ ∀ c, Reaches ns c (c + k) := by
  induction h with
  | nil => exact ⟨0, rfl, fun c => .nil⟩
  | @cons n ns a b c hm _ ih =>
    obtain ⟨k2, rfl, h2⟩ := ih (noOrg_tail hn)
    have : ∃ k1, b = a + k1 ∧ ∀ c, Moves n c (c + k1) := by
      cases hm with
      | org hd => exact (hn _ _ _ List.mem_cons_self (org_letters hd)).elim
      | db hd => exact ⟨_, rfl, fun c => .db hd⟩
      | equ hd => exact ⟨0, rfl, fun c => .equ hd⟩
      | label => exact ⟨0, rfl, fun c => .label⟩
      | instruction => exact ⟨2, rfl, fun c => .instruction⟩
    obtain ⟨k1, rfl, h1⟩ := this
    refine ⟨k1 + k2, by omega, fun c => .cons (h1 c) ?_⟩
    rw [← Nat.add_assoc]
    exact h2 _

theorem noOrg_sections {L : LabelMap} {ns : List Node} (hn : NoOrg ns) {start : U12} {secs : List DataRange}
    (h : Sections L start ns secs) : ∃ data, secs = [⟨start, data⟩] ∧ ∀ start', Sections L start' ns [⟨start', data⟩] := by
  induction h with
  | nil => exact ⟨[], rfl, fun _ => .nil⟩
  | org hd _ _ => exact (hn _ _ _ List.mem_cons_self (org_letters hd)).elim
  | emit he _ ih =>
    obtain ⟨data, e, h⟩ := ih (noOrg_tail hn)
    cases e
    exact ⟨_, rfl, fun s => .emit he (h s)⟩

section
variable {l l' : Loc} {s s' : Str} {xs xs' : List Literal} {k k' : U12} {body : List Node}

theorem moved_reaches (hk : DirectiveMeans s xs (.org k)) {p : List Node} {a c : Nat} :
    Reaches (.directive l s xs :: p) a c ↔ Reaches p k.toNat c := by
  constructor
  · intro h
    cases h with
    | cons hm h =>
      cases moves_unique hm (.org hk)
      exact h
  · exact .cons (.org hk)

theorem moved_split {x : Node} {p q : List Node} {loc : Loc} {nm : Str} (hx : ∀ l s, x ≠ .label l s)
    (h : x :: body = p ++ .label loc nm :: q) : ∃ p', p = x :: p' ∧ body = p' ++ .label loc nm :: q := by
  cases p with
  | nil =>
    simp only [List.nil_append, List.cons.injEq] at h
    exact (hx _ _ h.1).elim
  | cons y p =>
    simp only [List.cons_append, List.cons.injEq] at h
    exact ⟨p, by rw [h.1], h.2⟩

theorem moved_value (hk : DirectiveMeans s xs (.org k)) {nm : Str} {v : U12} :
    LabelValue (.directive l s xs :: body) nm v ↔ ∃ p loc q, body = p ++ .label loc nm :: q ∧
      (ConstantNext q v ∨ (∀ c, ¬ ConstantNext q c) ∧ Reaches p k.toNat v.toNat) := by
  rw [labelValue_iff]
  constructor
  · rintro ⟨p, loc, q, e, hv⟩
    obtain ⟨p', rfl, rfl⟩ := moved_split (by simp) e
    refine ⟨p', loc, q, rfl, ?_⟩
    unfold ValueHere at hv
    rwa [moved_reaches hk] at hv
  · rintro ⟨p, loc, q, rfl, hv⟩
    refine ⟨.directive l s xs :: p, loc, q, rfl, ?_⟩
    unfold ValueHere
    rwa [moved_reaches hk]

theorem moved_clean (hk' : DirectiveMeans s' xs' (.org k')) (hn : NoOrg body)
    (hf : ∀ b, Reaches body k'.toNat b → b ≤ 0xFFF) (h : Clean (.directive l s xs :: body)) :
    Clean (.directive l' s' xs' :: body) := by
  obtain ⟨h1, h2, h3, h4⟩ := clean_iff.1 h
  have hnc : ∀ {l : Loc} {s : Str} {xs : List Literal} {k c : U12} {r : List Node}, DirectiveMeans s xs (.org k) →
      ¬ ConstantNext (.directive l s xs :: r) c := by
    intro l s xs k c r hk h
    cases h with
    | intro h => cases means_unique hk h
  refine clean_iff.2 ⟨?_, ?_, h3, ?_⟩
  · intro l s xs hm
    rcases List.mem_cons.1 hm with e | hm
    · cases e
      exact ⟨_, hk'⟩
    · exact h1 l s xs (List.mem_cons_of_mem _ hm)
  · intro p q c e hq
    cases p with
    | nil =>
      rw [List.nil_append] at e
      subst e
      exact (hnc hk' hq).elim
    | cons n p =>
      simp only [List.cons_append, List.cons.injEq] at e
      obtain ⟨rfl, rfl⟩ := e
      have := h2 (.directive l s xs :: p) q c rfl hq
      cases p with
      | nil =>
        obtain ⟨p, _, _, e⟩ := this
        cases p with
        | nil => cases e
        | cons _ p => cases p <;> simp at e
      | cons m p =>
        rw [show ∀ x : Node, x :: m :: p = [x] ++ (m :: p) from fun _ => rfl, endsWithLabel_append (by simp)] at this ⊢
        exact this
  · intro p q a e hr
    cases p with
    | nil =>
      cases hr
      omega
    | cons n p =>
      simp only [List.cons_append, List.cons.injEq] at e
      obtain ⟨rfl, rfl⟩ := e
      rw [moved_reaches hk'] at hr
      obtain ⟨b, hb⟩ := reaches_exists (fun l s xs hm => h1 l s xs (List.mem_cons_of_mem _ (List.mem_append_right p hm))) a
      have := hf b (reaches_append.2 ⟨a, hr, hb⟩)
      obtain ⟨j, rfl, _⟩ := noOrg_reaches (fun l s xs hm => hn l s xs (List.mem_append_right p hm)) hb
      omega

theorem moved_assemble (hk : DirectiveMeans s xs (.org k)) (hk' : DirectiveMeans s' xs' (.org k')) (hn : NoOrg body)
    (hf : ∀ b, Reaches body k'.toNat b → b ≤ 0xFFF)
    (hu : ∀ l m fs nm, .instruction l m fs ∈ body → .identifier nm ∈ fs →
      ∃ p loc q v, body = p ++ .label loc nm :: q ∧ ConstantNext q v) {ranges : List DataRange}
    (h : assemble (.directive l s xs :: body) = .ret (.ok ranges)) :
    assemble (.directive l' s' xs' :: body) = .ret (.ok (ranges.map fun r => ⟨k', r.data⟩)) := by
  obtain ⟨L, secs, hc, hl, hs, rfl⟩ := assemble_ok_iff.1 h
  have hc' := moved_clean (l' := l') hk' hn hf hc
  obtain ⟨L', hL'⟩ := defineLabels_of_clean hc'
  have hl' := (defineLabels_ok hL').2
  have hsame : SameUses body L L' := by
    intro _ m fs nm hm hx
    obtain ⟨p, loc, q, v, e, hv⟩ := hu _ m fs nm hm hx
    rw [(hl nm v).2 ((moved_value hk).2 ⟨p, loc, q, e, .inl hv⟩), (hl' nm v).2 ((moved_value hk').2 ⟨p, loc, q, e, .inl hv⟩)]
  cases hs with
  | emit he _ =>
    cases he with
    | db hd => cases means_unique hk hd
    | equ hd => cases means_unique hk hd
  | org ho hs =>
    cases means_unique hk ho
    obtain ⟨data, rfl, hd⟩ := noOrg_sections hn hs
    refine assemble_ok_iff.2 ⟨L', _, hc', hl', .org hk' (sections_agree hsame (hd k')), ?_⟩
    cases data <;> rfl

theorem moved_label (hk : DirectiveMeans s xs (.org k)) (hk' : DirectiveMeans s' xs' (.org k')) (hn : NoOrg body)
    (hc : Clean (.directive l s xs :: body)) {nm : Str} {v v' : U12}
    (h : LabelValue (.directive l s xs :: body) nm v) (h' : LabelValue (.directive l' s' xs' :: body) nm v') :
    (∃ p loc q, body = p ++ .label loc nm :: q ∧ ConstantNext q v ∧ v' = v) ∨
    (∃ p loc q, body = p ++ .label loc nm :: q ∧ (∀ c, ¬ ConstantNext q c) ∧ v.toNat + k'.toNat = v'.toNat + k.toNat) := by
  obtain ⟨p, loc, q, e, hv⟩ := (moved_value hk).1 h
  obtain ⟨p', loc', q', e', hv'⟩ := (moved_value hk').1 h'
  have hnd := (clean_iff.1 hc).2.2.1
  change (labelNames body).Nodup at hnd
  have huniq : p = p' ∧ q = q' := by
    have hno : ∀ {a b : List Node} {loc : Loc}, (labelNames (a ++ .label loc nm :: b)).Nodup →
        (∀ l, .label l nm ∉ a) := by
      intro a b loc h l hm
      rw [labelNames_append] at h
      exact (List.nodup_append.1 h).2.2 nm (mem_labelNames.2 ⟨l, hm⟩) nm (by simp [labelNames]) rfl
    have ha := hno (e ▸ hnd)
    have ha' := hno (e' ▸ hnd)
    rw [e] at e'
    clear e h h' hv hv' hnd hno hc
    induction p generalizing p' with
    | nil =>
      cases p' with
      | nil => simp at e'; exact ⟨rfl, e'.2⟩
      | cons n p' =>
        simp only [List.nil_append, List.cons_append, List.cons.injEq] at e'
        exact (ha' loc (e'.1 ▸ List.mem_cons_self)).elim
    | cons n p ih =>
      cases p' with
      | nil =>
        simp only [List.nil_append, List.cons_append, List.cons.injEq] at e'
        exact (ha loc' (e'.1 ▸ List.mem_cons_self)).elim
      | cons n' p' =>
        simp only [List.cons_append, List.cons.injEq] at e'
        obtain ⟨h1, h2⟩ := ih _ e'.2 (fun l hm => ha l (List.mem_cons_of_mem _ hm)) (fun l hm => ha' l (List.mem_cons_of_mem _ hm))
        exact ⟨by rw [e'.1, h1], h2⟩
  obtain ⟨rfl, rfl⟩ := huniq
  rcases hv with hv | ⟨h1, h2⟩
  · rcases hv' with hv' | ⟨h1, _⟩
    · exact .inl ⟨p, loc, q, e, hv, constantNext_unique hv' hv⟩
    · exact (h1 _ hv).elim
  · rcases hv' with hv' | ⟨_, h2'⟩
    · exact (h1 _ hv').elim
    · refine .inr ⟨p, loc, q, e, h1, ?_⟩
      obtain ⟨j, ej, hj⟩ := noOrg_reaches (fun l s xs hm => hn l s xs (by rw [e]; exact List.mem_append_left _ hm)) h2
      have := reaches_unique h2' (hj k'.toNat)
      omega

end

end C8S
