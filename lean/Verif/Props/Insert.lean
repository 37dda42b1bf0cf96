import Verif.Proofs.Insert
import Verif.Props.Edit

/- Properties on putting statements into a program, and on taking them out: C89. -/

namespace C8S

open Spec LayoutExample EditExample

namespace InsertExample

theorem data7 : DataOnly [db7] := by
  intro n hn
  rw [List.mem_singleton] at hn
  exact .inr ⟨_, _, _, hn, by decide⟩

/-- A `.db 7` put before `here:`. -/
theorem gap : Gap [org200, jpHere] [db7] [here] [] 1 where
  data := data7
  nonEmpty := by simp
  size := .cons (.db db7_means) .nil
  section_end := by
    intro l s xs h
    rw [List.mem_singleton] at h
    cases h
  remainder := .inl rfl
  whole := by
    intro c h
    cases h

/-- `call here` -/
def callHere : Node := .instruction loc "call".toList [.identifier "here".toList]

/-- `.org $300` -/
def org300 : Node := .directive loc "org".toList [.numeric 0x300]

/-- A `.db 7` put between an instruction and data, with another section behind. -/
theorem gap' : Gap [org200, here, jpHere] [db7] [db9] [org300, callHere] 1 where
  data := data7
  nonEmpty := by simp
  size := .cons (.db db7_means) .nil
  section_end := by
    intro l s xs h
    rw [List.mem_singleton] at h
    cases h
    decide
  remainder := .inr ⟨_, _, _, 0x300, _, means_iff.1 rfl, rfl⟩
  whole := by
    intro c h
    cases h with
    | intro h => cases means_unique h ((means_iff (d := .db [9])).1 rfl)

theorem hereLabel : AddressLabel [here] "here".toList :=
  ⟨[], loc, [], rfl, fun c h => by cases h⟩

end InsertExample

open InsertExample

/-- C89: putting `k` bytes into a program adds `k` to the labels between that place and the next `.org`. All other labels,
and all constants, keep their values. -/
theorem C89_labels (A X B C : List Node) (k : Nat) (hg : Gap A X B C k) (L L' : LabelMap)
    (h : defineLabels (A ++ (B ++ C)) = .ok L) (h' : defineLabels (A ++ (X ++ (B ++ C))) = .ok L') (name : Str) :
    (AddressLabel B name → ∃ v v' : U12, L.get name = some v ∧ L'.get name = some v' ∧ v'.toNat = v.toNat + k) ∧
    (¬ AddressLabel B name → L'.get name = L.get name) :=
  hg.labels (defineLabels_ok h').1 (defineLabels_ok h).2 (defineLabels_ok h').2 name

example : Gap [org200, jpHere] [db7] [here] [] 1 ∧ AddressLabel [here] "here".toList ∧
    defineLabels ([org200, jpHere] ++ ([here] ++ [])) = .ok [("here".toList, 0x202)] ∧
    defineLabels ([org200, jpHere] ++ ([db7] ++ ([here] ++ []))) = .ok [("here".toList, 0x203)] :=
  ⟨gap, hereLabel, rfl, rfl⟩

/-- C89: an instruction that takes such a label as an address has its word grow by `k`. -/
theorem C89_word (A X B C : List Node) (k : Nat) (hg : Gap A X B C k) (L L' : LabelMap)
    (h : defineLabels (A ++ (B ++ C)) = .ok L) (h' : defineLabels (A ++ (X ++ (B ++ C))) = .ok L') (m name : Str)
    (fs : List Field) (base : Nat) (ht : TakesAddress m fs name base) (hb : AddressLabel B name) (w : Nat)
    (hw : Encodes L m fs w) : Encodes L' m fs (w + k) := by
  obtain ⟨v, v', h1, h2, h3⟩ := (C89_labels A X B C k hg L L' h h' name).1 hb
  cases encodes_unique hw (takesAddress_encodes ht h1)
  have := takesAddress_encodes ht h2
  rwa [h3, ← Nat.add_assoc] at this

example : Encodes [("here".toList, 0x203)] "jp".toList [.identifier "here".toList] (0x1202 + 1) :=
  C89_word [org200, jpHere] [db7] [here] [] 1 gap [("here".toList, 0x202)] _ rfl rfl "jp".toList "here".toList _ _
    (.jp (by decide)) hereLabel _ (takesAddress_encodes (m := "jp".toList) (s := "here".toList) (v := 0x202) (.jp (by decide)) rfl)

/-- C89: if the moved labels are only used as addresses, the longer program is accepted exactly if the bytes up to the next
`.org` still fit into memory and the new instructions are valid. -/
theorem C89_accepted (A X B C : List Node) (k : Nat) (hg : Gap A X B C k) (ranges : List DataRange)
    (h : assemble (A ++ (B ++ C)) = .ret (.ok ranges))
    (hu : ∀ l m fs s, .instruction l m fs ∈ A ++ (B ++ C) → .identifier s ∈ fs → AddressLabel B s → ∃ base, TakesAddress m fs s base) :
    (∃ ranges', assemble (A ++ (X ++ (B ++ C))) = .ret (.ok ranges')) ↔
      (∀ e, Reaches (A ++ B) 0 e → e + k ≤ 0xFFF) ∧
      ∀ L', LabelsOf (A ++ (X ++ (B ++ C))) L' → ∀ l m fs, .instruction l m fs ∈ X → ∃ w, Encodes L' m fs w := by
  obtain ⟨L, secs, hc, hl, hs, rfl⟩ := assemble_ok_iff.1 h
  constructor
  · rintro ⟨ranges', h'⟩
    obtain ⟨L', secs', hc', hl', hs', rfl⟩ := assemble_ok_iff.1 h'
    refine ⟨(hg.clean.1 hc').2, fun L2 hl2 l m fs hm => ?_⟩
    exact sections_instructions (sections_congr (labelsOf_congr hl' hl2) hs') l m fs (by simp [hm])
  · rintro ⟨hf, hi⟩
    have hc' := hg.clean.2 ⟨hc, hf⟩
    obtain ⟨L', hL'⟩ := defineLabels_of_clean hc'
    have hl' := (defineLabels_ok hL').2
    have hlab := hg.labels hc' hl hl'
    have hinst : ∀ l m fs, .instruction l m fs ∈ A ++ (X ++ (B ++ C)) → ∃ w, Encodes L' m fs w := by
      intro l m fs hm
      by_cases hX : .instruction l m fs ∈ X
      · exact hi L' hl' l m fs hX
      have hm' : .instruction l m fs ∈ A ++ (B ++ C) := by
        simp only [List.mem_append] at hm ⊢
        rcases hm with hm | hm | hm | hm
        · exact .inl hm
        · exact (hX hm).elim
        · exact .inr (.inl hm)
        · exact .inr (.inr hm)
      obtain ⟨w, hw⟩ := sections_instructions hs l m fs hm'
      by_cases hn : ∃ s, .identifier s ∈ fs ∧ AddressLabel B s
      · obtain ⟨s, hs1, hs2⟩ := hn
        obtain ⟨base, ht⟩ := hu l m fs s hm' hs1 hs2
        obtain ⟨_, v', _, h2, _⟩ := (hlab s).1 hs2
        exact ⟨_, takesAddress_encodes ht h2⟩
      · exact ⟨w, encodes_agree (fun s hs1 => (hlab s).2 fun hs2 => hn ⟨s, hs1, hs2⟩) hw⟩
    obtain ⟨secs', hs'⟩ := sections_exist _ (clean_iff.1 hc').1 hinst 0
    exact ⟨_, assemble_ok_iff.2 ⟨L', secs', hc', hl', hs', rfl⟩⟩

example : ∃ ranges', assemble ([org200, jpHere] ++ ([db7] ++ ([here] ++ []))) = .ret (.ok ranges') := ⟨_, rfl⟩

/-- C89: if no instruction uses a moved label, the bytes behind the new ones move up by `k`, up to the next `.org`. All other
bytes stay as they are. -/
theorem C89_bytes (A X B C : List Node) (k : Nat) (hg : Gap A X B C k) (ranges ranges' : List DataRange)
    (h : assemble (A ++ (B ++ C)) = .ret (.ok ranges)) (h' : assemble (A ++ (X ++ (B ++ C))) = .ret (.ok ranges'))
    (hu : ∀ l m fs s, .instruction l m fs ∈ A ++ (B ++ C) → .identifier s ∈ fs → ¬ AddressLabel B s) :
    ∃ a u new moved v, Reaches A 0 a ∧ new.length = k ∧ Reaches B a (a + moved.length) ∧
      (∀ L', LabelsOf (A ++ (X ++ (B ++ C))) L' → EmitsBlock L' X new ∧ EmitsBlock L' B moved) ∧
      image ranges = u ++ (placeAt a moved ++ v) ∧
      image ranges' = u ++ (placeAt a new ++ (placeAt (a + k) moved ++ v)) := by
  obtain ⟨L, secs, hc, hl, hs, rfl⟩ := assemble_ok_iff.1 h
  obtain ⟨L', secs', hc', hl', hs', rfl⟩ := assemble_ok_iff.1 h'
  have hlab := hg.labels hc' hl hl'
  have hd := (clean_iff.1 hc).1
  obtain ⟨a, ha⟩ := reaches_exists (nodes := A) (fun l s xs hm => hd l s xs (by simp [hm])) 0
  obtain ⟨b, hb⟩ := reaches_exists (nodes := B) (fun l s xs hm => hd l s xs (by simp [hm])) a
  have hw := sections_image hs
  have hw' := sections_image hs'
  rw [image_nonEmpty, image_nonEmpty]
  obtain ⟨u, r1, e1, hu1, hr1⟩ := writes_append ha hw
  obtain ⟨m1, v, e2, hm1, hv⟩ := writes_append hb hr1
  obtain ⟨moved, hmb, rfl⟩ := (writes_block hg.section_end).1 hm1
  obtain ⟨u', r1', e1', hu1', hr1'⟩ := writes_append ha hw'
  obtain ⟨x, r2', e2', hx, hr2'⟩ := writes_append (hg.size_at a) hr1'
  obtain ⟨new, hnb, rfl⟩ := (writes_block (data_noOrg hg.data)).1 hx
  have hsame : ∀ ns, (∀ n ∈ ns, n ∈ A ++ (B ++ C)) → SameUses ns L L' := fun ns hns l m fs s hm hf =>
    (hlab s).2 (hu l m fs s (hns _ hm) hf)
  have hmb' : EmitsBlock L' B moved := by
    have := (writes_block hg.section_end).1
      (writes_agree (hsame B fun n hn => by simp [hn]) ((writes_block hg.section_end (a := 0)).2 ⟨_, hmb, rfl⟩))
    obtain ⟨m2, h2, e⟩ := this
    have : moved = m2 := by
      have := congrArg (List.map Prod.snd) e
      have hp : ∀ (a : Nat) (bs : List U8), (placeAt a bs).map Prod.snd = bs := by
        intro a bs
        induction bs generalizing a with
        | nil => rfl
        | cons b bs ih => simp [placeAt, ih]
      rwa [hp, hp] at this
    rw [this]; exact h2
  have hlen := reaches_unique hb (emitsBlock_reaches hmb a)
  have hb' : Reaches B (a + k) (a + k + moved.length) := emitsBlock_reaches hmb' _
  obtain ⟨m2, v', e3', hm2, hv'⟩ := writes_append hb' hr2'
  cases writes_unique hm2 ((writes_block hg.section_end).2 ⟨_, hmb', rfl⟩)
  cases writes_unique hu1' (writes_agree (hsame A fun n hn => by simp [hn]) hu1)
  cases writes_unique hv' (writes_from hg.remainder (writes_agree (hsame C fun n hn => by simp [hn]) hv))
  refine ⟨a, u, new, moved, v, ha, ?_, emitsBlock_reaches hmb a, ?_, ?_, ?_⟩
  · have := reaches_unique hg.size (emitsBlock_reaches hnb 0)
    omega
  · intro L2 hl2
    have hg2 := labelsOf_congr hl' hl2
    have hcong : ∀ {ns : List Node} {bytes : List U8}, EmitsBlock L' ns bytes → EmitsBlock L2 ns bytes := by
      intro ns bytes h
      induction h with
      | nil => exact .nil
      | cons he _ ih => exact .cons (emits_congr hg2 he) ih
    exact ⟨hcong hnb, hcong hmb'⟩
  · rw [e1, e2]
  · rw [e1', e2', e3']

example : assemble ([org200, here, jpHere] ++ ([db9] ++ [org300, callHere])) =
      .ret (.ok [⟨0x200, [0x12, 0, 9]⟩, ⟨0x300, [0x22, 0]⟩]) ∧
    assemble ([org200, here, jpHere] ++ ([db7] ++ ([db9] ++ [org300, callHere]))) =
      .ret (.ok [⟨0x200, [0x12, 0, 7, 9]⟩, ⟨0x300, [0x22, 0]⟩]) ∧
    Gap [org200, here, jpHere] [db7] [db9] [org300, callHere] 1 ∧ ¬ AddressLabel [db9] "here".toList := by
  refine ⟨rfl, rfl, gap', ?_⟩
  rintro ⟨p, l, q, e, _⟩
  have : .label l "here".toList ∈ [db9] := by rw [e]; simp
  simp [db9] at this

/-- C89: the same for source files: lines put into a file move up the bytes behind them, up to the next `.org`. -/
theorem C89_text [Target] (file a x b c : Str) (A X B C : List Node) (ha : WholeLines a) (hx : WholeLines x) (hb : WholeLines b)
    (hA : Statements a A) (hX : Statements x X) (hB : Statements b B) (hC : Statements c C) (k : Nat) (hg : Gap A X B C k)
    (hu : ∀ l m fs s, .instruction l m fs ∈ A ++ (B ++ C) → .identifier s ∈ fs → ¬ AddressLabel B s)
    (bytes bytes' : List (Nat × U8)) (h : Describes wordBinary file (a ++ (b ++ c)) bytes)
    (h' : Describes wordBinary file (a ++ (x ++ (b ++ c))) bytes') :
    ∃ addr u new moved v, Reaches A 0 addr ∧ new.length = k ∧ Reaches B addr (addr + moved.length) ∧
      bytes = u ++ (placeAt addr moved ++ v) ∧ bytes' = u ++ (placeAt addr new ++ (placeAt (addr + k) moved ++ v)) := by
  have cbc := hasCut_append hb (statements_cut hB) (statements_cut hC)
  have c1 := hasCut_append ha (statements_cut hA) cbc
  have c2 := hasCut_append ha (statements_cut hA) (hasCut_append hx (statements_cut hX) cbc)
  obtain ⟨r, h1, rfl⟩ := (hasCut_describes c1 _).1 h
  obtain ⟨r', h2, rfl⟩ := (hasCut_describes c2 _).1 h'
  obtain ⟨addr, u, new, moved, v, e1, e2, e3, _, e4, e5⟩ := C89_bytes A X B C k hg r r' h1 h2 hu
  exact ⟨addr, u, new, moved, v, e1, e2, e3, e4, e5⟩

example : WholeLines "z: jp z\n".toList ∧ WholeLines ".db 7\n".toList ∧ WholeLines ".db 9\n".toList ∧
    Statements "z: jp z\n".toList [.label ⟨[], 1, 1, 1⟩ "z".toList, .instruction ⟨[], 1, 4, 2⟩ "jp".toList [.identifier "z".toList]] ∧
    Statements ".db 7\n".toList [.directive ⟨[], 1, 2, 2⟩ "db".toList [.numeric 7]] ∧
    Statements ".db 9\n".toList [.directive ⟨[], 1, 2, 2⟩ "db".toList [.numeric 9]] ∧
    Statements ".org 9".toList [.directive ⟨[], 1, 2, 3⟩ "org".toList [.numeric 9]] :=
  ⟨.inr ⟨"z: jp z".toList, rfl⟩, .inr ⟨".db 7".toList, rfl⟩, .inr ⟨".db 9".toList, rfl⟩, ⟨[], _, rfl, rfl⟩, ⟨[], _, rfl, rfl⟩,
    ⟨[], _, rfl, rfl⟩, ⟨[], _, rfl, rfl⟩⟩

/-- C89: the bytes elsewhere change if an instruction uses a moved label. -/
theorem C89_needs_unused : ∃ (A X B C : List Node) (r r' : List DataRange), Gap A X B C 1 ∧
    assemble (A ++ (B ++ C)) = .ret (.ok r) ∧ assemble (A ++ (X ++ (B ++ C))) = .ret (.ok r') ∧
    ∃ p q, p ∈ image r ∧ q ∈ image r' ∧ p.1 = 0x201 ∧ q.1 = 0x201 ∧ p ≠ q :=
  ⟨[org200, jpHere], [db7], [here], [], [⟨0x200, [0x12, 2]⟩], [⟨0x200, [0x12, 3, 7]⟩], gap, rfl, rfl, (0x201, 2), (0x201, 3),
    by decide, by decide, rfl, rfl, by decide⟩

/-- C89: a label used as an 8-bit number can make the longer program invalid although it fits into memory. -/
theorem C89_needs_address : ∃ (A X B C : List Node) (k : Nat) (r : List DataRange) (e : SemanticError), Gap A X B C k ∧
    (∀ l m fs, .instruction l m fs ∉ X) ∧ (∀ e, Reaches (A ++ B) 0 e → e + k ≤ 0xFFF) ∧
    assemble (A ++ (B ++ C)) = .ret (.ok r) ∧ assemble (A ++ (X ++ (B ++ C))) = .ret (.error e) := by
  refine ⟨[.directive loc "org".toList [.numeric 0xFD], .instruction loc "ld".toList [.generalPurposeRegister 0, .identifier "here".toList]],
    [db7], [here], [], 1, [⟨0xFD, [0x60, 0xFF]⟩], .assemblyFailed loc (.expectingEightBitValue 0x100),
    ⟨data7, by simp, .cons (.db db7_means) .nil, ?_, .inl rfl, ?_⟩, by simp [db7], ?_, rfl, rfl⟩
  · exact gap.section_end
  · exact gap.whole
  · intro e he
    have : Reaches ([.directive loc "org".toList [.numeric 0xFD],
        .instruction loc "ld".toList [.generalPurposeRegister 0, .identifier "here".toList]] ++ [here]) 0 0xFF :=
      .cons (.org (v := 0xFD) (means_iff.1 rfl)) (.cons .instruction (.cons .label .nil))
    cases reaches_unique he this
    decide

end C8S
