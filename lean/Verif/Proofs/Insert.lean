import Verif.Spec.Insert
import Verif.Proofs.Edit
import Verif.Proofs.Combine
import Verif.Proofs.Relocate

/- Lemmas on statements put into a program. -/

namespace C8S

open Spec

section
variable {A X B C : List Node} {k : Nat}

theorem Spec.Gap.next (h : Gap A X B C k) (c : U12) : ¬ ConstantNext B c := fun hc => h.whole c (constantNext_append hc)

theorem noOrg_left {p q : List Node} (h : NoOrg (p ++ q)) : NoOrg p := fun l s xs hm => h l s xs (List.mem_append_left _ hm)

theorem noOrg_right {p q : List Node} (h : NoOrg (p ++ q)) : NoOrg q := fun l s xs hm => h l s xs (List.mem_append_right _ hm)

theorem Spec.Gap.size_at (h : Gap A X B C k) (a : Nat) : Reaches X a (a + k) := by
  obtain ⟨j, e, hj⟩ := data_reaches h.data h.size
  obtain rfl : k = j := by omega
  exact hj a

theorem Spec.Gap.reaches (h : Gap A X B C k) {p : List Node} (hp : NoOrg p) {a c : Nat} :
    Reaches (A ++ (X ++ p)) a (c + k) ↔ Reaches (A ++ p) a c := by
  constructor
  · intro hr
    obtain ⟨b, h1, hr⟩ := reaches_append.1 hr
    obtain ⟨b', h2, h3⟩ := reaches_append.1 hr
    cases reaches_unique h2 (h.size_at b)
    obtain ⟨j, e, hj⟩ := noOrg_reaches hp h3
    obtain rfl : c = b + j := by omega
    exact reaches_append.2 ⟨b, h1, hj b⟩
  · intro hr
    obtain ⟨b, h1, h3⟩ := reaches_append.1 hr
    obtain ⟨j, rfl, hj⟩ := noOrg_reaches hp h3
    refine reaches_append.2 ⟨b, h1, reaches_append.2 ⟨_, h.size_at b, ?_⟩⟩
    have := hj (b + k)
    rwa [show b + k + j = b + j + k by omega] at this

theorem Spec.Gap.constantNext (h : Gap A X B C k) {q : List Node} {c : U12} :
    ConstantNext (q ++ (X ++ B)) c ↔ ConstantNext (q ++ B) c := by
  cases q with
  | nil =>
    refine ⟨fun hc => ?_, fun hc => (h.next c hc).elim⟩
    exact (data_no_constant (p := []) h.data rfl h.nonEmpty B hc).elim
  | cons n q =>
    constructor
    · intro hc
      cases hc with | intro hd => exact .intro hd
    · intro hc
      cases hc with | intro hd => exact .intro hd

/-- The value of a label after the statements are put in. -/
theorem Spec.Gap.value (h : Gap A X B C k) {nm : Str} {v : U12} (hv : LabelValue (A ++ B) nm v) :
    (LabelValue (A ++ (X ++ B)) nm v ∧ (nm ∈ labelNames A ∨ ∃ p l q, B = p ++ .label l nm :: q ∧ ConstantNext q v)) ∨
    (AddressLabel B nm ∧ ∀ v' : U12, v'.toNat = v.toNat + k → LabelValue (A ++ (X ++ B)) nm v') := by
  obtain ⟨p, loc, q, e, hh⟩ := labelValue_iff.1 hv
  rcases split_three (C := []) (by simpa using e) with ⟨q', rfl, rfl⟩ | ⟨p', q', hC, _⟩ | ⟨p', rfl, rfl⟩
  · refine .inl ⟨labelValue_iff.2 ⟨p, loc, q' ++ (X ++ B), by simp, ?_⟩, .inl ?_⟩
    · rcases hh with hh | ⟨h1, h2⟩
      · exact .inl (h.constantNext.2 (by simpa using hh))
      · exact .inr ⟨fun c hc => h1 c (by simpa using h.constantNext.1 hc), h2⟩
    · exact mem_labelNames.2 ⟨loc, by simp⟩
  · simp at hC
  · rw [List.nil_append] at hh
    rcases hh with hh | ⟨h1, h2⟩
    · exact .inl ⟨labelValue_iff.2 ⟨A ++ (X ++ p'), loc, q, by simp, .inl hh⟩, .inr ⟨p', loc, q, rfl, hh⟩⟩
    · refine .inr ⟨⟨p', loc, q, rfl, h1⟩, fun v' hv' => labelValue_iff.2 ⟨A ++ (X ++ p'), loc, q, by simp, .inr ⟨h1, ?_⟩⟩⟩
      rw [hv']
      exact (h.reaches (noOrg_left h.section_end)).2 h2

theorem Spec.Gap.directives (h : Gap A X B C k) : DirectivesOk (A ++ (X ++ B)) ↔ DirectivesOk (A ++ B) := by
  have hX := reaches_directives h.size
  constructor
  · intro hd l s xs hm
    refine hd l s xs ?_
    rcases List.mem_append.1 hm with hm | hm <;> simp [hm]
  · intro hd l s xs hm
    rcases List.mem_append.1 hm with hm | hm
    · exact hd l s xs (by simp [hm])
    rcases List.mem_append.1 hm with hm | hm
    · exact hX l s xs hm
    · exact hd l s xs (by simp [hm])

theorem Spec.Gap.names (h : Gap A X B C k) (D : List Node) : labelNames (A ++ (X ++ D)) = labelNames (A ++ D) := by
  simp [labelNames_append, data_labelNames h.data]

theorem Spec.Gap.constants (h : Gap A X B C k) : ConstantsOk (A ++ (X ++ B)) ↔ ConstantsOk (A ++ B) := by
  constructor
  · intro hc p q c e hq
    rcases prefix_three (C := []) (by simpa using e) with ⟨q', rfl, rfl⟩ | ⟨p', q', e', rfl, rfl⟩ | ⟨p', rfl, rfl⟩
    · exact hc p (q' ++ (X ++ B)) c (by simp) (h.constantNext.2 (by simpa using hq))
    · obtain ⟨rfl, rfl⟩ := List.append_eq_nil_iff.1 e'.symm
      exact (h.next c (by simpa using hq)).elim
    · by_cases hp : p' = []
      · subst hp
        exact (h.next c hq).elim
      · have := hc (A ++ (X ++ p')) q c (by simp) hq
        rw [← List.append_assoc, endsWithLabel_append hp] at this
        rw [List.nil_append, endsWithLabel_append hp]
        exact this
  · intro hc p q c e hq
    rcases prefix_three e with ⟨q', rfl, rfl⟩ | ⟨p', q', rfl, rfl, rfl⟩ | ⟨p', rfl, rfl⟩
    · exact hc p (q' ++ B) c (by simp) (h.constantNext.1 hq)
    · by_cases hq' : q' = []
      · subst hq'
        exact (h.next c (by simpa using hq)).elim
      · exact (data_no_constant h.data rfl hq' B hq).elim
    · by_cases hp : p' = []
      · subst hp
        exact (h.next c hq).elim
      · have := hc (A ++ p') q c (by simp) hq
        rw [endsWithLabel_append hp] at this
        rw [← List.append_assoc, endsWithLabel_append hp]
        exact this

theorem Spec.Gap.fits (h : Gap A X B C k) (hd : DirectivesOk (A ++ B)) :
    FitsMemory (A ++ (X ++ B)) ↔ FitsMemory (A ++ B) ∧ ∀ e, Reaches (A ++ B) 0 e → e + k ≤ 0xFFF := by
  constructor
  · intro hf
    refine ⟨?_, fun e he => hf (A ++ (X ++ B)) [] _ (by simp) ((h.reaches h.section_end).2 he)⟩
    intro p q a e hr
    rcases prefix_three (C := []) (by simpa using e) with ⟨q', rfl, rfl⟩ | ⟨p', q', e', rfl, rfl⟩ | ⟨p', rfl, rfl⟩
    · exact hf p (q' ++ (X ++ B)) a (by simp) hr
    · obtain ⟨rfl, rfl⟩ := List.append_eq_nil_iff.1 e'.symm
      exact hf A (X ++ B) a rfl (by simpa using hr)
    · have := hf (A ++ (X ++ p')) q (a + k) (by simp) ((h.reaches (noOrg_left h.section_end)).2 (by simpa using hr))
      omega
  · rintro ⟨hf, he⟩
    obtain ⟨b0, hb0⟩ := reaches_exists hd 0
    have hend := he b0 hb0
    obtain ⟨a0, ha0, hB⟩ := reaches_append.1 hb0
    obtain ⟨j, rfl, hj⟩ := noOrg_reaches h.section_end hB
    intro p q a e hr
    rcases prefix_three e with ⟨q', rfl, rfl⟩ | ⟨p', q', rfl, rfl, rfl⟩ | ⟨p', rfl, rfl⟩
    · exact hf p (q' ++ B) a (by simp) hr
    · obtain ⟨b, hb1, hb2⟩ := reaches_append.1 hr
      cases reaches_unique hb1 ha0
      obtain ⟨c, hc1, hc2⟩ := reaches_append.1 h.size
      obtain ⟨k1, rfl, hk1⟩ := data_reaches (fun n hn => h.data n (List.mem_append_left _ hn)) hb2
      obtain ⟨k2, rfl, hk2⟩ := data_reaches (fun n hn => h.data n (List.mem_append_right _ hn)) hc2
      have := reaches_unique hc1 (hk1 0)
      omega
    · obtain ⟨b, hb1, hb2⟩ := reaches_append.1 hr
      cases reaches_unique hb1 ha0
      obtain ⟨c, hc1, hc2⟩ := reaches_append.1 hb2
      cases reaches_unique hc1 (h.size_at _)
      obtain ⟨c', hc3, hc4⟩ := reaches_append.1 hB
      obtain ⟨k1, rfl, hk1⟩ := noOrg_reaches (noOrg_left h.section_end) hc2
      obtain ⟨k2, e2, hk2⟩ := noOrg_reaches (noOrg_right h.section_end) hc4
      have := reaches_unique hc3 (hk1 a0)
      omega

theorem clean_boundary {p q : List Node} (hq : Boundary q) : Clean (p ++ q) ↔ Clean p ∧ Clean q ∧ (labelNames (p ++ q)).Nodup := by
  constructor
  · intro h
    obtain ⟨h1, h2, h3, h4⟩ := clean_iff.1 h
    have hp : DirectivesOk p := fun l s xs hm => h1 l s xs (List.mem_append_left _ hm)
    obtain ⟨c1, c2⟩ := (constants_boundary hq).1 h2
    obtain ⟨f1, f2⟩ := (fits_boundary hp hq).1 h4
    have hn := h3
    rw [labelNames_append] at hn
    exact ⟨clean_iff.2 ⟨hp, c1, (List.nodup_append.1 hn).1, f1⟩,
      clean_iff.2 ⟨fun l s xs hm => h1 l s xs (List.mem_append_right _ hm), c2, (List.nodup_append.1 hn).2.1, f2⟩, h3⟩
  · rintro ⟨h1, h2, h3⟩
    obtain ⟨a1, a2, _, a4⟩ := clean_iff.1 h1
    obtain ⟨b1, b2, _, b4⟩ := clean_iff.1 h2
    refine clean_iff.2 ⟨?_, (constants_boundary hq).2 ⟨a2, b2⟩, h3, (fits_boundary a1 hq).2 ⟨a4, b4⟩⟩
    intro l s xs hm
    rcases List.mem_append.1 hm with hm | hm
    · exact a1 l s xs hm
    · exact b1 l s xs hm

theorem Spec.Gap.clean (h : Gap A X B C k) :
    Clean (A ++ (X ++ (B ++ C))) ↔ Clean (A ++ (B ++ C)) ∧ ∀ e, Reaches (A ++ B) 0 e → e + k ≤ 0xFFF := by
  have hb : Boundary C := h.remainder
  rw [show A ++ (X ++ (B ++ C)) = (A ++ (X ++ B)) ++ C by simp, show A ++ (B ++ C) = (A ++ B) ++ C by simp,
    clean_boundary hb, clean_boundary hb, clean_iff, clean_iff (nodes := A ++ B), h.directives, h.constants, h.names B]
  have hn : labelNames (A ++ (X ++ B) ++ C) = labelNames (A ++ B ++ C) := by
    rw [labelNames_append, h.names, ← labelNames_append]
  rw [hn]
  constructor
  · rintro ⟨⟨h1, h2, h3, h4⟩, h5, h6⟩
    rw [h.fits h1] at h4
    exact ⟨⟨⟨h1, h2, h3, h4.1⟩, h5, h6⟩, h4.2⟩
  · rintro ⟨⟨⟨h1, h2, h3, h4⟩, h5, h6⟩, h7⟩
    exact ⟨⟨h1, h2, h3, (h.fits h1).2 ⟨h4, h7⟩⟩, h5, h6⟩

/-- The labels of the program with the statements put in. -/
theorem Spec.Gap.labels (h : Gap A X B C k) (hc : Clean (A ++ (X ++ (B ++ C)))) {L L' : LabelMap}
    (hl : LabelsOf (A ++ (B ++ C)) L) (hl' : LabelsOf (A ++ (X ++ (B ++ C))) L') (nm : Str) :
    (AddressLabel B nm → ∃ v v' : U12, L.get nm = some v ∧ L'.get nm = some v' ∧ v'.toNat = v.toNat + k) ∧
    (¬ AddressLabel B nm → L'.get nm = L.get nm) := by
  obtain ⟨hco, hend⟩ := h.clean.1 hc
  have hb : Boundary C := h.remainder
  have hd : DirectivesOk (A ++ B) := fun l s xs hm => (clean_iff.1 hco).1 l s xs (by
    rcases List.mem_append.1 hm with hm | hm <;> simp [hm])
  have hd' := h.directives.2 hd
  have hnd : (labelNames (A ++ (B ++ C))).Nodup := (clean_iff.1 hco).2.2.1
  have e1 : ∀ v, LabelValue (A ++ (B ++ C)) nm v ↔ LabelValue (A ++ B) nm v ∨ LabelValue C nm v := by
    intro v
    rw [← List.append_assoc, labelValue_boundary hd hb]
  have e2 : ∀ v, LabelValue (A ++ (X ++ (B ++ C))) nm v ↔ LabelValue (A ++ (X ++ B)) nm v ∨ LabelValue C nm v := by
    intro v
    rw [show A ++ (X ++ (B ++ C)) = (A ++ (X ++ B)) ++ C by simp, labelValue_boundary hd' hb]
  obtain ⟨b0, hb0⟩ := reaches_exists hd 0
  have hfit := hend b0 hb0
  constructor
  · rintro ⟨p, l, q, e, hq⟩
    have hBd : DirectivesOk (A ++ p) := fun l s xs hm => hd l s xs (by
      rw [e]
      rcases List.mem_append.1 hm with hm | hm <;> simp [hm])
    obtain ⟨a, ha⟩ := reaches_exists hBd 0
    have hBo : NoOrg (p ++ .label l nm :: q) := e ▸ h.section_end
    have hle : a ≤ b0 := by
      obtain ⟨c, hc1, hc2⟩ := reaches_append.1 (show Reaches ((A ++ p) ++ .label l nm :: q) 0 b0 by
        rw [List.append_assoc, ← e]; exact hb0)
      cases reaches_unique hc1 ha
      obtain ⟨j, rfl, _⟩ := noOrg_reaches (noOrg_right hBo) hc2
      omega
    refine ⟨BitVec.ofNat 12 a, BitVec.ofNat 12 (a + k), ?_, ?_, ?_⟩
    · rw [hl, e1]
      refine .inl (labelValue_iff.2 ⟨A ++ p, l, q, by rw [e]; simp, .inr ⟨hq, ?_⟩⟩)
      rw [BitVec.toNat_ofNat, Nat.mod_eq_of_lt (by omega)]
      exact ha
    · rw [hl', e2]
      refine .inl (labelValue_iff.2 ⟨A ++ (X ++ p), l, q, by rw [e]; simp, .inr ⟨hq, ?_⟩⟩)
      rw [BitVec.toNat_ofNat, Nat.mod_eq_of_lt (by omega)]
      exact (h.reaches (noOrg_left hBo)).2 ha
    · rw [BitVec.toNat_ofNat, BitVec.toNat_ofNat, Nat.mod_eq_of_lt (by omega), Nat.mod_eq_of_lt (by omega)]
  · intro hna
    have hfwd : ∀ v, L.get nm = some v → L'.get nm = some v := by
      intro v hv
      rw [hl, e1] at hv
      rw [hl', e2]
      rcases hv with hv | hv
      · rcases h.value hv with ⟨hv, _⟩ | ⟨hv, _⟩
        · exact .inl hv
        · exact (hna hv).elim
      · exact .inr hv
    cases hg : L.get nm with
    | some v => exact hfwd v hg
    | none =>
      cases hg' : L'.get nm with
      | none => rfl
      | some v' =>
        have hv := (hl' nm v').1 hg'
        obtain ⟨p, loc, q, e, _⟩ := labelValue_iff.1 hv
        have hm : nm ∈ labelNames (A ++ (X ++ (B ++ C))) := mem_labelNames.2 ⟨loc, by rw [e]; simp⟩
        rw [h.names (B ++ C)] at hm
        obtain ⟨l, hm⟩ := mem_labelNames.1 hm
        obtain ⟨v, hv⟩ := label_exists hco hm
        rw [(hl nm v).2 hv] at hg
        cases hg

theorem writes_cat {L : LabelMap} {p q : List Node} {a b : Nat} {w1 w2 : List (Nat × U8)} (hr : Reaches p a b)
    (h1 : Writes L p a w1) (h2 : Writes L q b w2) : Writes L (p ++ q) a (w1 ++ w2) := by
  induction h1 with
  | nil => cases hr; exact h2
  | org hd _ ih =>
    cases hr with
    | cons hm hr =>
      cases moves_unique hm (.org hd)
      exact .org hd (ih hr)
  | @emit n bytes a ns ws he _ ih =>
    cases hr with
    | cons hm hr =>
      cases moves_unique hm (emits_moves he a)
      rw [List.append_assoc]
      exact .emit he (ih hr)

theorem writes_agree {L L' : LabelMap} {ns : List Node} {a : Nat} {ws : List (Nat × U8)} (hu : SameUses ns L L')
    (h : Writes L ns a ws) : Writes L' ns a ws := by
  induction h with
  | nil => exact .nil
  | org hd _ ih => exact .org hd (ih fun l m fs s hm => hu l m fs s (List.mem_cons_of_mem _ hm))
  | emit he _ ih =>
    exact .emit (emits_agree (fun l m fs s hm => hu l m fs s (by
      rw [List.mem_singleton.1 hm]; exact List.mem_cons_self)) he) (ih fun l m fs s hm => hu l m fs s (List.mem_cons_of_mem _ hm))

theorem writes_block {L : LabelMap} {ns : List Node} (hn : NoOrg ns) {a : Nat} {ws : List (Nat × U8)} :
    Writes L ns a ws ↔ ∃ bytes, EmitsBlock L ns bytes ∧ ws = placeAt a bytes := by
  constructor
  · intro h
    induction h with
    | nil => exact ⟨[], .nil, rfl⟩
    | org hd _ _ => exact (hn _ _ _ List.mem_cons_self (org_letters hd)).elim
    | emit he _ ih =>
      obtain ⟨bytes, hb, rfl⟩ := ih (noOrg_tail hn)
      exact ⟨_, .cons he hb, (placeAt_append _ _ _).symm⟩
  · rintro ⟨bytes, h, rfl⟩
    induction h generalizing a with
    | nil => exact .nil
    | cons he _ ih =>
      rw [placeAt_append]
      exact .emit he (ih (noOrg_tail hn))

theorem data_noOrg (h : DataOnly X) : NoOrg X := by
  intro l s xs hm hs
  rcases h _ hm with ⟨_, _, _, e⟩ | ⟨_, _, _, e, hs'⟩
  · cases e
  · cases e
    exact absurd (hs'.symm.trans hs) (by decide)

/-- What is written from an `.org` on does not depend on the address before it. -/
theorem writes_from {L : LabelMap} {ns : List Node} (h : Boundary ns) {a b : Nat} {ws : List (Nat × U8)} (hw : Writes L ns a ws) :
    Writes L ns b ws := by
  rcases h with rfl | ⟨l, s, xs, v, body, hd, rfl⟩
  · cases hw; exact .nil
  · cases hw with
    | org hd' hw => exact .org hd' hw
    | emit he _ => exact (emits_not_org he hd).elim

theorem hexValue_addr (d v : Nat) : hexValue [d, v / 256, v / 16 % 16, v % 16] = d * 4096 + v := by
  simp only [hexValue, List.foldl_cons, List.foldl_nil]
  omega

theorem takesAddress_encodes {L : LabelMap} {m s : Str} {fs : List Field} {base : Nat} (h : TakesAddress m fs s base) {v : U12}
    (hv : L.get s = some v) : Encodes L m fs (base + v.toNat) := by
  cases h with
  | jp h =>
    refine ⟨⟨"1nnn".toList, "jp".toList, [.addr]⟩, by decide, { nnn := v.toNat }, h.word, .cons (.addr (.label hv)) .nil, by simp, ?_⟩
    exact (hexValue_addr 1 _).symm
  | call h =>
    refine ⟨⟨"2nnn".toList, "call".toList, [.addr]⟩, by decide, { nnn := v.toNat }, h.word, .cons (.addr (.label hv)) .nil, by simp, ?_⟩
    exact (hexValue_addr 2 _).symm
  | ld h =>
    refine ⟨⟨"Annn".toList, "ld".toList, [.i, .addr]⟩, by decide, { nnn := v.toNat }, h.word, .cons .i (.cons (.addr (.label hv)) .nil), by simp, ?_⟩
    exact (hexValue_addr 10 _).symm
  | jpOffset h =>
    refine ⟨⟨"Bnnn".toList, "jp".toList, [.v0, .addr]⟩, by decide, { nnn := v.toNat }, h.word, .cons .v0 (.cons (.addr (.label hv)) .nil), by simp, ?_⟩
    exact (hexValue_addr 11 _).symm

theorem takesAddress_only {m s t : Str} {fs : List Field} {base : Nat} (h : TakesAddress m fs s base) (ht : .identifier t ∈ fs) :
    t = s := by
  cases h <;> simpa using ht

end

end C8S
