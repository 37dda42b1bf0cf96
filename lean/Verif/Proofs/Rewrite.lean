import Verif.Proofs.Rename
import Verif.Proofs.Relocate

/- Replacing labels by their values, statements by others with the same bytes, adding labels, joining programs. -/

namespace C8S

open Spec Instruction

/-! ### Labels and their values -/

theorem renameMap_id (L : LabelMap) : renameMap id L = L := by
  unfold renameMap
  simp

theorem renameResult_id {α : Type} (r : Except InstructionError α) : renameResult id r = r := by
  cases r with
  | ok x => rfl
  | error e => cases e <;> rfl

theorem renameNode_eq (f : Str → Str) : renameNode f = rewriteNode f (List.map (renameField f)) := by
  funext n; cases n <;> rfl

theorem inlineNode_eq (L : LabelMap) : inlineNode L = rewriteNode id (List.map (inlineField L)) := by
  funext n; cases n <;> rfl

theorem rawMatch_inline {L L' : LabelMap} (hl : ∀ s, L'.get s = L.get s) (m : Str) (fs : List Field) : ∀ pre : List Field,
    rawMatch m (pre ++ fs) L = rawMatch m (pre ++ fs.map (inlineField L')) L := by
  induction fs with
  | nil => intro pre; rfl
  | cons x fs ih =>
    intro pre
    have h1 : rawMatch m (pre ++ x :: fs) L = rawMatch m (pre ++ inlineField L' x :: fs) L := by
      cases x with
      | identifier s =>
        simp only [inlineField, hl]
        cases hg : L.get s with
        | none => rfl
        | some v => exact rawMatch_label (by simp [resolveLabelWithMap, hg]) m pre fs
      | _ => rfl
    rw [h1, List.map_cons]
    have := ih (pre ++ [inlineField L' x])
    simpa using this

theorem assemble_rename {f : Str → Str} {ns : List Node}
    (hinj : ∀ a b, Mentions ns a → Mentions ns b → f a = f b → a = b) :
    SameOutcome f (assemble ns) (assemble (ns.map (renameNode f))) := by
  have hname : ∀ a, a ∈ labelNames ns → Mentions ns a := fun a ha => .inl (mem_labelNames.1 ha)
  rw [renameNode_eq]
  refine assemble_rewrite f _ ns (fun a ha b hb => hinj a b (hname a ha) (hname b hb)) ?_
  intro L hL l m fs hm
  obtain ⟨hc, hl⟩ := defineLabels_ok hL
  refine sameResult_raw (rawMatch_rename _ ?_)
  rintro x hx s rfl
  refine get_renameMap fun p hp e => hinj _ _ ?_ (.inr ⟨l, m, fs, hm, hx⟩) e
  cases hg : L.get p.1 with
  | none =>
    have : ∀ (L : LabelMap) (p : Str × U12), p ∈ L → L.get p.1 ≠ none := by
      intro L p hp h
      unfold LabelMap.get at h
      rw [List.lookup_eq_none_iff] at h
      have := h p hp
      simp at this
    exact (this L p hp hg).elim
  | some v =>
    obtain ⟨pre, loc, q, e, _⟩ := labelValue_iff.1 ((hl _ _).1 hg)
    exact .inl ⟨loc, by rw [e]; simp⟩

theorem assemble_inline {L : LabelMap} {ns : List Node} (hl : LabelsOf ns L) :
    SameOutcome id (assemble ns) (assemble (ns.map (inlineNode L))) := by
  rw [inlineNode_eq]
  refine assemble_rewrite id _ ns (fun a _ b _ h => h) ?_
  intro L' hL' l m fs hm
  obtain ⟨hc, hl'⟩ := defineLabels_ok hL'
  refine sameResult_raw ?_
  rw [renameMap_id, renameResult_id]
  exact (rawMatch_inline (labelsOf_congr hl hl') _ fs []).symm

/-! ### Programs without labels -/

theorem denotes_inline {L L' : LabelMap} {x : Field} {n : Nat} (h : Denotes L x n) : Denotes L' (inlineField L x) n := by
  cases h with
  | literal v => exact .literal v
  | label h =>
    simp only [inlineField, h]
    exact .literal _

theorem fitsAll_inline {L L' : LabelMap} {v : Vars} {slots : List Slot} {fs : List Field} (h : FitsAll L v slots fs) :
    FitsAll L' v slots (fs.map (inlineField L)) := by
  induction h with
  | nil => exact .nil
  | cons h0 _ ih =>
    refine .cons ?_ ih
    cases h0 with
    | nn hd hle => exact .nn (denotes_inline hd) hle
    | n hd hle => exact .n (denotes_inline hd) hle
    | addr hd => exact .addr (denotes_inline hd)
    | vx h1 h2 => exact .vx h1 h2
    | vy h1 h2 => exact .vy h1 h2
    | v0 => exact .v0
    | i => exact .i
    | indI => exact .indI
    | dt => exact .dt
    | st => exact .st
    | k => exact .k
    | f => exact .f
    | b => exact .b

theorem encodes_inline {L L' : LabelMap} {m : Str} {fs : List Field} {w : Nat} (h : Encodes L m fs w) :
    Encodes L' m (fs.map (inlineField L)) w := by
  obtain ⟨row, hr, v, h1, h2, h3, h4⟩ := h
  exact ⟨row, hr, v, h1, fitsAll_inline h2, h3, h4⟩

theorem withoutLabels_append (L : LabelMap) (p q : List Node) :
    withoutLabels L (p ++ q) = withoutLabels L p ++ withoutLabels L q := by
  simp [withoutLabels]

theorem withoutLabels_skip {L : LabelMap} {n : Node} (h : ¬ Places n) (ns : List Node) :
    withoutLabels L (n :: ns) = withoutLabels L ns := by
  simp [withoutLabels, h]

theorem withoutLabels_keep {L : LabelMap} {n : Node} (h : Places n) (ns : List Node) :
    withoutLabels L (n :: ns) = inlineNode L n :: withoutLabels L ns := by
  simp [withoutLabels, h]

theorem places_instruction (l : Loc) (m : Str) (fs : List Field) : Places (.instruction l m fs) := trivial

theorem means_places {l : Loc} {s : Str} {xs : List Literal} {d : Directive} (h : DirectiveMeans s xs d) :
    Places (.directive l s xs) ↔ ∀ v, d ≠ .equ v := by
  cases h with
  | org a h =>
    simp only [Places]
    refine ⟨by simp, fun _ h' => absurd (h.symm.trans h') (by decide)⟩
  | equ a h =>
    simp only [Places]
    exact ⟨fun hn => (hn h).elim, fun hn => (hn _ rfl).elim⟩
  | db h h1 h2 =>
    simp only [Places]
    refine ⟨by simp, fun _ h' => absurd (h.symm.trans h') (by decide)⟩

theorem reaches_withoutLabels {L : LabelMap} {ns : List Node} {a b : Nat} (h : Reaches ns a b) :
    Reaches (withoutLabels L ns) a b := by
  induction h with
  | nil => exact .nil
  | cons hm _ ih =>
    cases hm with
    | org hd => rw [withoutLabels_keep ((means_places hd).2 (by simp))]; exact .cons (.org hd) ih
    | db hd => rw [withoutLabels_keep ((means_places hd).2 (by simp))]; exact .cons (.db hd) ih
    | equ hd => rw [withoutLabels_skip (by rw [means_places hd]; simp)]; exact ih
    | label => rw [withoutLabels_skip (by simp [Places])]; exact ih
    | instruction => rw [withoutLabels_keep (places_instruction ..)]; exact .cons .instruction ih

theorem mem_withoutLabels {L : LabelMap} {ns : List Node} {n : Node} (h : n ∈ withoutLabels L ns) :
    ∃ m ∈ ns, Places m ∧ n = inlineNode L m := by
  simp only [withoutLabels, List.mem_map, List.mem_filter, decide_eq_true_eq] at h
  obtain ⟨m, ⟨h1, h2⟩, rfl⟩ := h
  exact ⟨m, h1, h2, rfl⟩

theorem prefix_withoutLabels {L : LabelMap} {ns pre post : List Node} (h : withoutLabels L ns = pre ++ post) :
    ∃ p q, ns = p ++ q ∧ withoutLabels L p = pre := by
  induction ns generalizing pre with
  | nil =>
    have : pre = [] := (List.append_eq_nil_iff.1 h.symm).1
    subst this
    exact ⟨[], [], rfl, rfl⟩
  | cons n ns ih =>
    by_cases hp : Places n
    · rw [withoutLabels_keep hp] at h
      cases pre with
      | nil => exact ⟨[], n :: ns, rfl, rfl⟩
      | cons m pre =>
        simp only [List.cons_append, List.cons.injEq] at h
        obtain ⟨rfl, h⟩ := h
        obtain ⟨p, q, rfl, rfl⟩ := ih h
        exact ⟨n :: p, q, rfl, withoutLabels_keep hp _⟩
    · rw [withoutLabels_skip hp] at h
      obtain ⟨p, q, rfl, rfl⟩ := ih h
      exact ⟨n :: p, q, rfl, withoutLabels_skip hp _⟩

theorem sections_withoutLabels {L L' : LabelMap} {start : U12} {ns : List Node} {secs : List DataRange}
    (h : Sections L start ns secs) : Sections L' start (withoutLabels L ns) secs := by
  induction h with
  | nil => exact .nil
  | org hd _ ih => rw [withoutLabels_keep ((means_places hd).2 (by simp))]; exact .org hd ih
  | emit he _ ih =>
    cases he with
    | db hd => rw [withoutLabels_keep ((means_places hd).2 (by simp))]; exact .emit (.db hd) ih
    | equ hd => rw [withoutLabels_skip (by rw [means_places hd]; simp)]; exact ih
    | label => rw [withoutLabels_skip (by simp [Places])]; exact ih
    | instruction he => rw [withoutLabels_keep (places_instruction ..)]; exact .emit (.instruction (encodes_inline he)) ih

theorem no_labels_value {ns : List Node} (h : labelNames ns = []) : LabelsOf ns [] := by
  intro nm v
  constructor
  · intro h; cases h
  · intro hv
    obtain ⟨p, loc, q, e, _⟩ := labelValue_iff.1 hv
    have : nm ∈ labelNames ns := mem_labelNames.2 ⟨loc, by rw [e]; simp⟩
    rw [h] at this
    cases this

theorem clean_withoutLabels {L : LabelMap} {ns : List Node} (h : Clean ns) : Clean (withoutLabels L ns) := by
  obtain ⟨h1, h2, h3, h4⟩ := clean_iff.1 h
  have hno : ∀ p q c, withoutLabels L ns = p ++ q → ¬ ConstantNext q c := by
    intro p q c e hc
    cases hc with
    | intro hd =>
      obtain ⟨m, hm, hp, e⟩ := mem_withoutLabels (L := L) (ns := ns) (by rw [e]; exact List.mem_append_right _ List.mem_cons_self)
      cases m with
      | directive l s xs =>
        cases e
        exact (means_places hd).1 hp _ rfl
      | label => exact hp
      | instruction => cases e
  refine clean_iff.2 ⟨?_, ?_, ?_, ?_⟩
  · intro l s xs hm
    obtain ⟨m, hm, hp, e⟩ := mem_withoutLabels hm
    cases m with
    | directive l s xs => cases e; exact h1 _ _ _ hm
    | label => exact hp.elim
    | instruction => cases e
  · intro p q c e hc
    exact (hno p q c e hc).elim
  · have : labelNames (withoutLabels L ns) = [] := by
      rw [List.eq_nil_iff_forall_not_mem]
      intro nm hnm
      obtain ⟨loc, hm⟩ := mem_labelNames.1 hnm
      obtain ⟨m, _, hp, e⟩ := mem_withoutLabels hm
      cases m with
      | label => exact hp
      | directive => cases e
      | instruction => cases e
    rw [this]
    exact .nil
  · intro p q a e hr
    obtain ⟨p', q', rfl, rfl⟩ := prefix_withoutLabels e
    obtain ⟨b, hb⟩ := reaches_exists (nodes := p') (fun l s xs hm => h1 l s xs (List.mem_append_left _ hm)) 0
    cases reaches_unique hr (reaches_withoutLabels hb)
    exact h4 p' q' _ rfl hb

theorem labelNames_withoutLabels (L : LabelMap) (ns : List Node) : labelNames (withoutLabels L ns) = [] := by
  rw [List.eq_nil_iff_forall_not_mem]
  intro nm hnm
  obtain ⟨loc, hm⟩ := mem_labelNames.1 hnm
  obtain ⟨m, _, hp, e⟩ := mem_withoutLabels hm
  cases m with
  | label => exact hp
  | directive => cases e
  | instruction => cases e

theorem assemble_withoutLabels {L : LabelMap} {ns : List Node} {ranges : List DataRange} (hl : LabelsOf ns L)
    (h : assemble ns = .ret (.ok ranges)) : assemble (withoutLabels L ns) = .ret (.ok ranges) := by
  obtain ⟨L', secs, hc, hl', hs, rfl⟩ := assemble_ok_iff.1 h
  exact assemble_ok_iff.2 ⟨[], secs, clean_withoutLabels hc, no_labels_value (labelNames_withoutLabels L ns),
    sections_withoutLabels (sections_congr (labelsOf_congr hl' hl) hs), rfl⟩

/-! ### Replacing statements -/

theorem db_means {s : Str} {xs : List Literal} {d : Directive} (hs : SameLetters s "db".toList)
    (h : DirectiveMeans s xs d) : ∃ bytes, d = .db bytes := by
  cases h with
  | org a h => exact absurd (hs.symm.trans h) (by decide)
  | equ a h => exact absurd (hs.symm.trans h) (by decide)
  | db h h1 h2 => exact ⟨_, rfl⟩

section
variable {X Y A B : List Node}

theorem data_no_label (hX : DataOnly X) {l : Loc} {s : Str} : .label l s ∉ X := by
  intro h
  rcases hX _ h with ⟨_, _, _, e⟩ | ⟨_, _, _, e, _⟩ <;> cases e

theorem data_labelNames (hX : DataOnly X) : labelNames X = [] := by
  rw [List.eq_nil_iff_forall_not_mem]
  intro nm h
  obtain ⟨l, h⟩ := mem_labelNames.1 h
  exact data_no_label hX h

theorem data_no_constant (hX : DataOnly X) {p q : List Node} {c : U12} (e : X = p ++ q) (hq : q ≠ []) (R : List Node) :
    ¬ ConstantNext (q ++ R) c := by
  intro h
  cases q with
  | nil => exact hq rfl
  | cons n q =>
    generalize hr : n :: q ++ R = r at h
    cases h with
    | intro hd =>
      simp only [List.cons_append, List.cons.injEq] at hr
      obtain ⟨rfl, _⟩ := hr
      rcases hX _ (by rw [e]; exact List.mem_append_right _ List.mem_cons_self) with ⟨_, _, _, e⟩ | ⟨l, s, xs, e, hs⟩
      · cases e
      · cases e
        obtain ⟨_, e⟩ := db_means hs hd
        cases e

theorem data_moves {n : Node} (hn : DataOnly [n]) {a b : Nat} (h : Moves n a b) : ∃ k, ∀ c, Moves n c (c + k) ∧ b = a + k := by
  cases h with
  | org hd =>
    rcases hn _ List.mem_cons_self with ⟨_, _, _, e⟩ | ⟨l, s, xs, e, hs⟩
    · cases e
    · cases e; obtain ⟨_, e⟩ := db_means hs hd; cases e
  | db hd => exact ⟨_, fun c => ⟨.db hd, rfl⟩⟩
  | equ hd => exact ⟨0, fun c => ⟨.equ hd, rfl⟩⟩
  | label => exact ⟨0, fun c => ⟨.label, rfl⟩⟩
  | instruction => exact ⟨2, fun c => ⟨.instruction, rfl⟩⟩

theorem data_reaches (hX : DataOnly X) {a b : Nat} (h : Reaches X a b) : ∃ k, b = a + k ∧ ∀ c, Reaches X c (c + k) := by
  induction h with
  | nil => exact ⟨0, rfl, fun c => .nil⟩
  | @cons n ns a b c hm _ ih =>
    obtain ⟨k1, h1⟩ := data_moves (fun m hm => hX m (by rw [List.mem_singleton.1 hm]; exact List.mem_cons_self)) hm
    obtain ⟨k2, rfl, h2⟩ := ih fun m hm => hX m (List.mem_cons_of_mem _ hm)
    have := (h1 0).2
    refine ⟨k1 + k2, by omega, fun c => .cons (h1 c).1 ?_⟩
    rw [← Nat.add_assoc]
    exact h2 _

theorem reaches_directives {ns : List Node} {a b : Nat} (h : Reaches ns a b) : DirectivesOk ns := by
  induction h with
  | nil => intro _ _ _ h; cases h
  | cons hm _ ih =>
    intro l s xs h
    rcases List.mem_cons.1 h with h | h
    · subst h
      cases hm with
      | org h => exact ⟨_, h⟩
      | db h => exact ⟨_, h⟩
      | equ h => exact ⟨_, h⟩
    · exact ih l s xs h

/-- The blocks are data of the same size. -/
structure SameSize (X Y : List Node) : Prop where
  left : DataOnly X
  right : DataOnly Y
  left_ne : X ≠ []
  right_ne : Y ≠ []
  size : ∃ k, Reaches X 0 k ∧ Reaches Y 0 k

theorem SameSize.symm (h : SameSize X Y) : SameSize Y X :=
  ⟨h.right, h.left, h.right_ne, h.left_ne, h.size.imp fun _ h => ⟨h.2, h.1⟩⟩

theorem SameSize.reaches (h : SameSize X Y) {a b : Nat} (hr : Reaches X a b) : Reaches Y a b := by
  obtain ⟨k, h1, h2⟩ := h.size
  obtain ⟨k1, e, h1⟩ := data_reaches h.left h1
  obtain ⟨k2, e', h2⟩ := data_reaches h.right h2
  cases reaches_unique hr (h1 a)
  rw [show k1 = k2 by omega]
  exact h2 a

theorem SameSize.reaches_around (h : SameSize X Y) {p : List Node} {a c : Nat} (hr : Reaches (A ++ (X ++ p)) a c) :
    Reaches (A ++ (Y ++ p)) a c := by
  obtain ⟨b, h1, h2⟩ := reaches_append.1 hr
  obtain ⟨b', h2, h3⟩ := reaches_append.1 h2
  exact reaches_append.2 ⟨b, h1, reaches_append.2 ⟨b', h.reaches h2, h3⟩⟩

theorem SameSize.constantNext (h : SameSize X Y) {q : List Node} {c : U12} (hc : ConstantNext (q ++ (X ++ B)) c) :
    ConstantNext (q ++ (Y ++ B)) c := by
  cases q with
  | nil => exact (data_no_constant h.left (p := []) rfl h.left_ne B hc).elim
  | cons n q =>
    generalize hr : n :: q ++ (X ++ B) = r at hc
    cases hc with
    | intro hd =>
      simp only [List.cons_append, List.cons.injEq] at hr
      obtain ⟨rfl, _⟩ := hr
      exact .intro hd

theorem SameSize.labelValue (h : SameSize X Y) {nm : Str} {u : U12} (hv : LabelValue (A ++ (X ++ B)) nm u) :
    LabelValue (A ++ (Y ++ B)) nm u := by
  obtain ⟨p, loc, q, e, hv⟩ := labelValue_iff.1 hv
  refine labelValue_iff.2 ?_
  rcases split_three e with ⟨q', rfl, rfl⟩ | ⟨p', q', rfl, _⟩ | ⟨p', rfl, rfl⟩
  · refine ⟨p, loc, q' ++ (Y ++ B), by simp, ?_⟩
    rcases hv with hv | ⟨h1, h2⟩
    · exact .inl (h.constantNext hv)
    · exact .inr ⟨fun c hc => h1 c (h.symm.constantNext hc), h2⟩
  · exact (data_no_label h.left (l := loc) (s := nm) (by simp)).elim
  · refine ⟨A ++ (Y ++ p'), loc, q, by simp, ?_⟩
    rcases hv with hv | ⟨h1, h2⟩
    · exact .inl hv
    · exact .inr ⟨h1, h.reaches_around h2⟩

theorem endsWithLabel_data (hX : DataOnly X) (hne : X ≠ []) : ¬ EndsWithLabel (A ++ X) := by
  rw [endsWithLabel_append hne]
  rintro ⟨p, l, s, rfl⟩
  exact data_no_label hX (l := l) (s := s) (by simp)

theorem SameSize.clean (h : SameSize X Y) (hc : Clean (A ++ (X ++ B))) : Clean (A ++ (Y ++ B)) := by
  obtain ⟨h1, h2, h3, h4⟩ := clean_iff.1 hc
  obtain ⟨k, hkX, hkY⟩ := h.size
  refine clean_iff.2 ⟨?_, ?_, ?_, ?_⟩
  · intro l s xs hm
    rcases List.mem_append.1 hm with hm | hm
    · exact h1 l s xs (List.mem_append_left _ hm)
    rcases List.mem_append.1 hm with hm | hm
    · exact reaches_directives hkY l s xs hm
    · exact h1 l s xs (List.mem_append_right _ (List.mem_append_right _ hm))
  · intro p q c e hq
    rcases prefix_three e with ⟨q', rfl, rfl⟩ | ⟨p', q', rfl, rfl, rfl⟩ | ⟨p', rfl, rfl⟩
    · exact h2 p (q' ++ (X ++ B)) c (by simp) (h.symm.constantNext hq)
    · by_cases hq' : q' = []
      · subst hq'
        have := h2 (A ++ X) B c (by simp) (by simpa using hq)
        exact (endsWithLabel_data h.left h.left_ne this).elim
      · exact (data_no_constant h.right rfl hq' B hq).elim
    · have := h2 (A ++ (X ++ p')) q c (by simp) hq
      by_cases hp : p' = []
      · subst hp
        rw [List.append_nil] at this
        exact (endsWithLabel_data h.left h.left_ne this).elim
      · rw [← List.append_assoc, endsWithLabel_append hp] at this ⊢
        exact this
  · rw [labelNames_append, labelNames_append, data_labelNames h.right]
    rw [labelNames_append, labelNames_append, data_labelNames h.left] at h3
    exact h3
  · intro p q a e hr
    rcases prefix_three e with ⟨q', rfl, rfl⟩ | ⟨p', q', rfl, rfl, rfl⟩ | ⟨p', rfl, rfl⟩
    · exact h4 p (q' ++ (X ++ B)) a (by simp) hr
    · obtain ⟨b, hb1, hb2⟩ := reaches_append.1 hr
      obtain ⟨c, hc1, hc2⟩ := reaches_append.1 hkY
      obtain ⟨k1, rfl, hk1⟩ := data_reaches (fun n hn => h.right n (List.mem_append_left _ hn)) hb2
      obtain ⟨k2, rfl, hk2⟩ := data_reaches (fun n hn => h.right n (List.mem_append_right _ hn)) hc2
      have hall : Reaches (p' ++ q') b (b + k1 + k2) := reaches_append.2 ⟨_, hb2, hk2 _⟩
      have := h4 (A ++ X) B (b + k1 + k2) (by simp) (reaches_append.2 ⟨b, hb1, h.symm.reaches hall⟩)
      omega
    · exact h4 (A ++ (X ++ p')) q a (by simp) (h.symm.reaches_around hr)

theorem sections_block {L : LabelMap} (hX : DataOnly X) {start : U12} {secs : List DataRange} :
    Sections L start (X ++ B) secs ↔ ∃ bytes data rest, EmitsBlock L X bytes ∧ Sections L start B (⟨start, data⟩ :: rest) ∧
      secs = ⟨start, bytes ++ data⟩ :: rest := by
  induction X generalizing secs with
  | nil =>
    constructor
    · intro h
      obtain ⟨d, r, rfl⟩ := sections_head h
      exact ⟨[], d, r, .nil, h, rfl⟩
    · rintro ⟨bytes, data, rest, h1, h2, rfl⟩
      cases h1
      exact h2
  | cons n X ih =>
    have hX' : DataOnly X := fun m hm => hX m (List.mem_cons_of_mem _ hm)
    constructor
    · intro h
      rw [List.cons_append] at h
      cases h with
      | org hd _ =>
        rcases hX _ List.mem_cons_self with ⟨_, _, _, e⟩ | ⟨l, s, xs, e, hs⟩
        · cases e
        · cases e; obtain ⟨_, e⟩ := db_means hs hd; cases e
      | emit he h =>
        obtain ⟨b, d, r, h1, h2, e⟩ := (ih hX').1 h
        cases e
        exact ⟨_, d, _, .cons he h1, h2, by simp⟩
    · rintro ⟨bytes, data, rest, h1, h2, rfl⟩
      cases h1 with
      | cons he h1 =>
        rw [List.append_assoc, List.cons_append]
        exact .emit he ((ih hX').2 ⟨_, data, rest, h1, h2, rfl⟩)

theorem sections_replace {L : LabelMap} (hX : DataOnly X) (hY : DataOnly Y)
    (h : ∀ bytes, EmitsBlock L X bytes → EmitsBlock L Y bytes) {start : U12} {secs : List DataRange}
    (hs : Sections L start (A ++ (X ++ B)) secs) : Sections L start (A ++ (Y ++ B)) secs := by
  induction A generalizing start secs with
  | nil =>
    obtain ⟨b, d, r, h1, h2, rfl⟩ := (sections_block hX).1 hs
    exact (sections_block hY).2 ⟨b, d, r, h b h1, h2, rfl⟩
  | cons n A ih =>
    rw [List.cons_append] at hs ⊢
    cases hs with
    | org hd hs => exact .org hd (ih hs)
    | emit he hs => exact .emit he (ih hs)

theorem SameSize.labelsOf (h : SameSize X Y) {L : LabelMap} : LabelsOf (A ++ (X ++ B)) L ↔ LabelsOf (A ++ (Y ++ B)) L := by
  have : ∀ nm v, LabelValue (A ++ (X ++ B)) nm v ↔ LabelValue (A ++ (Y ++ B)) nm v :=
    fun nm v => ⟨h.labelValue, h.symm.labelValue⟩
  simp only [LabelsOf, this]

theorem SameSize.assemble (h : SameSize X Y)
    (he : ∀ L, LabelsOf (A ++ (X ++ B)) L → ∀ bytes, EmitsBlock L X bytes → EmitsBlock L Y bytes) {ranges : List DataRange}
    (ha : C8S.assemble (A ++ (X ++ B)) = .ret (.ok ranges)) : C8S.assemble (A ++ (Y ++ B)) = .ret (.ok ranges) := by
  obtain ⟨L, secs, hc, hl, hs, rfl⟩ := assemble_ok_iff.1 ha
  exact assemble_ok_iff.2 ⟨L, secs, h.clean hc, h.labelsOf.1 hl, sections_replace h.left h.right (he L hl) hs, rfl⟩

end

theorem emitsAll_append {a b : List Literal} {x y : List U8} (ha : EmitsAll a x) (hb : EmitsAll b y) :
    EmitsAll (a ++ b) (x ++ y) := by
  induction ha with
  | nil => exact hb
  | number _ ih => exact .number ih
  | string _ ih => rw [List.append_assoc]; exact .string ih

theorem emitsAll_split {a b : List Literal} {z : List U8} (h : EmitsAll (a ++ b) z) :
    ∃ x y, z = x ++ y ∧ EmitsAll a x ∧ EmitsAll b y := by
  induction a generalizing z with
  | nil => exact ⟨[], z, rfl, .nil, h⟩
  | cons l a ih =>
    rw [List.cons_append] at h
    cases h with
    | number h =>
      obtain ⟨x, y, rfl, h1, h2⟩ := ih h
      exact ⟨_ :: x, y, rfl, .number h1, h2⟩
    | string h =>
      obtain ⟨x, y, rfl, h1, h2⟩ := ih h
      exact ⟨_ ++ x, y, by rw [List.append_assoc], .string h1, h2⟩

theorem emitsBlock_single {L : LabelMap} {n : Node} {bytes : List U8} : EmitsBlock L [n] bytes ↔ Emits L n bytes := by
  constructor
  · intro h
    cases h with
    | cons h1 h2 => cases h2; simpa using h1
  · intro h
    have := EmitsBlock.cons h .nil
    rwa [List.append_nil] at this

end C8S
