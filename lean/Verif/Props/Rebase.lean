import Verif.Proofs.Rebase
import Verif.Props.Insert
import Verif.Props.Provenance

/- Property C115: a section of a program given another address. -/

namespace C8S

open Spec LayoutExample EditExample InsertExample

namespace RebaseExample

/-- `.org $210` -/
def org210 : Node := .directive loc "org".toList [.numeric 0x210]

/-- `call here` before and after a section with `db7`, `here:` and `jp here`, at `$200` or at `$210`. -/
theorem section' : Rebased [callHere] org200 org210 [db7, here, jpHere] [org300, callHere] 0x200 0x210 where
  old := ⟨_, _, _, rfl, means_iff.1 rfl⟩
  new := ⟨_, _, _, rfl, means_iff.1 rfl⟩
  section_end := by
    intro l s xs h
    simp only [db7, here, jpHere, List.mem_cons, List.not_mem_nil, or_false] at h
    rcases h with h | h | h
    · cases h
      decide
    · cases h
    · cases h
  remainder := .inr ⟨_, _, _, 0x300, _, means_iff.1 rfl, rfl⟩

theorem old : assemble ([callHere] ++ org200 :: ([db7, here, jpHere] ++ [org300, callHere])) =
    .ret (.ok [⟨0, [0x22, 0x01]⟩, ⟨0x200, [7, 0x12, 0x01]⟩, ⟨0x300, [0x22, 0x01]⟩]) := by rfl

theorem new : assemble ([callHere] ++ org210 :: ([db7, here, jpHere] ++ [org300, callHere])) =
    .ret (.ok [⟨0, [0x22, 0x11]⟩, ⟨0x210, [7, 0x12, 0x11]⟩, ⟨0x300, [0x22, 0x11]⟩]) := by rfl

theorem label : AddressLabel [db7, here, jpHere] "here".toList :=
  ⟨[db7], loc, [jpHere], rfl, fun c h => by cases h⟩

theorem uses : UsedAsAddresses ([callHere] ++ org200 :: ([db7, here, jpHere] ++ [org300, callHere])) [db7, here, jpHere] := by
  intro l m fs s hm hs _
  simp only [callHere, org200, db7, here, jpHere, org300, List.cons_append, List.nil_append, List.mem_cons, List.not_mem_nil,
    or_false] at hm
  rcases hm with h | h | h | h | h | h | h
  all_goals cases h
  all_goals simp only [List.mem_cons, List.not_mem_nil, or_false, Field.identifier.injEq] at hs
  all_goals subst hs
  · exact ⟨_, .call (by decide)⟩
  · exact ⟨_, .jp (by decide)⟩
  · exact ⟨_, .call (by decide)⟩

end RebaseExample

open RebaseExample

/-- C115: when a section goes from `k` to `k'`, so do the labels defined as addresses in it. All other labels, and all
constants, keep their values. -/
theorem C115_labels (A B C : List Node) (o o' : Node) (k k' : U12) (hg : Rebased A o o' B C k k') (L L' : LabelMap)
    (h : defineLabels (A ++ o :: (B ++ C)) = .ok L) (h' : defineLabels (A ++ o' :: (B ++ C)) = .ok L') (name : Str) :
    (AddressLabel B name →
      ∃ v v' : U12, L.get name = some v ∧ L'.get name = some v' ∧ v.toNat + k'.toNat = v'.toNat + k.toNat) ∧
    (¬ AddressLabel B name → L'.get name = L.get name) :=
  hg.labels (defineLabels_ok h).1 (defineLabels_ok h').1 (defineLabels_ok h).2 (defineLabels_ok h').2 name

example : defineLabels ([callHere] ++ org200 :: ([db7, here, jpHere] ++ [org300, callHere])) = .ok [("here".toList, 0x201)] ∧
    defineLabels ([callHere] ++ org210 :: ([db7, here, jpHere] ++ [org300, callHere])) = .ok [("here".toList, 0x211)] ∧
    AddressLabel [db7, here, jpHere] "here".toList :=
  ⟨rfl, rfl, label⟩

/-- C115: if these labels are only used as addresses, the program with the section at the new address is accepted exactly if
the section ends within memory there. -/
theorem C115_accepted (A B C : List Node) (o o' : Node) (k k' : U12) (hg : Rebased A o o' B C k k') (ranges : List DataRange)
    (h : assemble (A ++ o :: (B ++ C)) = .ret (.ok ranges)) (hu : UsedAsAddresses (A ++ o :: (B ++ C)) B) :
    (∃ ranges', assemble (A ++ o' :: (B ++ C)) = .ret (.ok ranges')) ↔ ∀ e, Reaches B k'.toNat e → e ≤ 0xFFF := by
  obtain ⟨L, secs, hc, hl, hs, rfl⟩ := assemble_ok_iff.1 h
  rw [← hg.clean hc]
  constructor
  · rintro ⟨ranges', h'⟩
    obtain ⟨_, _, hc', _⟩ := assemble_ok_iff.1 h'
    exact hc'
  · intro hc'
    obtain ⟨L', hL'⟩ := defineLabels_of_clean hc'
    have hl' := (defineLabels_ok hL').2
    have hlab := hg.labels hc hc' hl hl'
    have hinst : ∀ l m fs, .instruction l m fs ∈ A ++ o' :: (B ++ C) → ∃ w, Encodes L' m fs w := by
      intro l m fs hm
      have hm' : .instruction l m fs ∈ A ++ o :: (B ++ C) := by
        obtain ⟨_, _, _, rfl, _⟩ := hg.new
        simp only [List.mem_append, List.mem_cons, reduceCtorEq, false_or] at hm ⊢
        rcases hm with hm | hm | hm
        · exact .inl hm
        · exact .inr (.inr (.inl hm))
        · exact .inr (.inr (.inr hm))
      obtain ⟨w, hw⟩ := sections_instructions hs l m fs hm'
      by_cases hn : ∃ s, .identifier s ∈ fs ∧ AddressLabel B s
      · obtain ⟨s, hs1, hs2⟩ := hn
        obtain ⟨base, ht⟩ := hu l m fs s hm' hs1 hs2
        obtain ⟨_, v', _, h2, _⟩ := (hlab s).1 hs2
        exact ⟨_, takesAddress_encodes ht h2⟩
      · exact ⟨w, encodes_agree (fun s hs1 => (hlab s).2 fun hs2 => hn ⟨s, hs1, hs2⟩) hw⟩
    obtain ⟨secs', hs'⟩ := sections_exist _ (clean_iff.1 hc').1 hinst 0
    exact ⟨_, assemble_ok_iff.2 ⟨L', secs', hc', hl', hs', rfl⟩⟩

example : ∀ e, Reaches [db7, here, jpHere] 0x210 e → e ≤ 0xFFF :=
  (C115_accepted [callHere] _ _ _ _ _ 0x210 section' _ old uses).1 ⟨_, new⟩

/-- C115: a statement that names none of these labels puts the same bytes in both programs; if it is in the section, at an
address that goes along with it, and otherwise at the same address. -/
theorem C115_kept (A B C : List Node) (o o' : Node) (k k' : U12) (hg : Rebased A o o' B C k k') (L L' : LabelMap)
    (h : defineLabels (A ++ o :: (B ++ C)) = .ok L) (h' : defineLabels (A ++ o' :: (B ++ C)) = .ok L') (i x x' : Nat) (b : U8)
    (hn : NamesNone (A ++ o :: (B ++ C)) B i) (hx : GoesAlong A B k k' i x x') :
    Puts L (A ++ o :: (B ++ C)) i x b ↔ Puts L' (A ++ o' :: (B ++ C)) i x' b := by
  have hlab := C115_labels A B C o o' k k' hg L L' h h'
  constructor
  · rintro ⟨pre, n, post, a, bytes, e, rfl, hr, hb, hle, hat⟩
    obtain ⟨pre', post', a', e', hlen, hr', hga⟩ := hg.place e hr hb
    have hb' : Emits L' n bytes := by
      refine emits_agree (fun l m fs s hm hf => (hlab s).2 ?_) hb
      rw [List.mem_singleton] at hm
      exact hn l m fs s (by rw [e, hm]; simp) hf
    refine ⟨pre', n, post', a', bytes, e', hlen, hr', hb', ?_, ?_⟩
    · obtain ⟨g1, g2⟩ := hga
      obtain ⟨x1, x2⟩ := hx
      by_cases hw : WithinSection A B pre.length
      · have := g1 hw; have := x1 hw; omega
      · have := g2 hw; have := x2 hw; omega
    · have : x' - a' = x - a := by
        obtain ⟨g1, g2⟩ := hga
        obtain ⟨x1, x2⟩ := hx
        by_cases hw : WithinSection A B pre.length
        · have := g1 hw; have := x1 hw; omega
        · have := g2 hw; have := x2 hw; omega
      rw [this, hat]
  · rintro ⟨pre', n, post', a', bytes, e', rfl, hr', hb', hle, hat⟩
    obtain ⟨pre, post, a, e, hlen, hr, hga⟩ := hg.symm.place e' hr' hb'
    rw [← hlen] at hn hx hga ⊢
    have hb : Emits L n bytes := by
      refine emits_agree (fun l m fs s hm hf => ((hlab s).2 ?_).symm) hb'
      rw [List.mem_singleton] at hm
      exact hn l m fs s (by rw [e, hm]; simp) hf
    refine ⟨pre, n, post, a, bytes, e, rfl, hr, hb, ?_, ?_⟩
    · obtain ⟨g1, g2⟩ := hga
      obtain ⟨x1, x2⟩ := hx
      by_cases hw : WithinSection A B pre.length
      · have := g1 hw; have := x1 hw; omega
      · have := g2 hw; have := x2 hw; omega
    · have : x - a = x' - a' := by
        obtain ⟨g1, g2⟩ := hga
        obtain ⟨x1, x2⟩ := hx
        by_cases hw : WithinSection A B pre.length
        · have := g1 hw; have := x1 hw; omega
        · have := g2 hw; have := x2 hw; omega
      rw [this, hat]

example : NamesNone ([callHere] ++ org200 :: ([db7, here, jpHere] ++ [org300, callHere])) [db7, here, jpHere] 2 ∧
    GoesAlong [callHere] [db7, here, jpHere] 0x200 0x210 2 0x200 0x210 ∧
    GoesAlong [callHere] [db7, here, jpHere] 0x200 0x210 6 0x300 0x300 := by
  refine ⟨fun l m fs s h => ?_, ⟨fun _ => rfl, fun h => (h ⟨by decide, by decide⟩).elim⟩,
    ⟨fun h => absurd h.2 (by decide), fun _ => rfl⟩⟩
  cases h

/-- C115: an instruction that takes one of these labels as an address is put at the address that goes along, or at the same
one, and its word changes by the distance between the addresses of the section. -/
theorem C115_patched (A B C : List Node) (o o' : Node) (k k' : U12) (hg : Rebased A o o' B C k k') (ranges ranges' : List DataRange)
    (h : assemble (A ++ o :: (B ++ C)) = .ret (.ok ranges)) (h' : assemble (A ++ o' :: (B ++ C)) = .ret (.ok ranges'))
    (i base : Nat) (l : Loc) (m s : Str) (fs : List Field) (hi : (A ++ o :: (B ++ C))[i]? = some (.instruction l m fs))
    (ht : TakesAddress m fs s base) (hs : AddressLabel B s) :
    ∃ (a a' : Nat) (hi lo hi' lo' : U8), GoesAlong A B k k' i a a' ∧ (a, hi) ∈ image ranges ∧ (a + 1, lo) ∈ image ranges ∧
      (a', hi') ∈ image ranges' ∧ (a' + 1, lo') ∈ image ranges' ∧
      Reaches ((A ++ o :: (B ++ C)).take i) 0 a ∧ Reaches ((A ++ o' :: (B ++ C)).take i) 0 a' ∧
      hi.toNat * 256 + lo.toNat + k'.toNat = hi'.toNat * 256 + lo'.toNat + k.toNat := by
  obtain ⟨L, secs, hc, hl, hs1, rfl⟩ := assemble_ok_iff.1 h
  obtain ⟨L', secs', hc', hl', hs1', rfl⟩ := assemble_ok_iff.1 h'
  obtain ⟨v, v', hv, hv', hd⟩ := (hg.labels hc hc' hl hl' s).1 hs
  have w := takesAddress_encodes ht hv
  have w' := takesAddress_encodes ht hv'
  obtain ⟨b1, b2, e1⟩ := encodes_bytes w
  obtain ⟨c1, c2, e2⟩ := encodes_bytes w'
  have hcut : A ++ o :: (B ++ C) = (A ++ o :: (B ++ C)).take i ++ .instruction l m fs :: (A ++ o :: (B ++ C)).drop (i + 1) := by
    obtain ⟨hlt, hget⟩ := List.getElem?_eq_some_iff.1 hi
    rw [← hget, ← List.drop_eq_getElem_cons hlt, List.take_append_drop]
  have hlen : ((A ++ o :: (B ++ C)).take i).length = i := by
    obtain ⟨hlt, _⟩ := List.getElem?_eq_some_iff.1 hi
    rw [List.length_take]
    omega
  obtain ⟨a, ha⟩ := reaches_exists (nodes := (A ++ o :: (B ++ C)).take i)
    (fun l s xs hm => (clean_iff.1 hc).1 l s xs (List.mem_of_mem_take hm)) 0
  have em : Emits L (.instruction l m fs) [b1, b2] := .instruction (e1 ▸ w)
  have em' : Emits L' (.instruction l m fs) [c1, c2] := .instruction (e2 ▸ w')
  obtain ⟨pre', post', a', e', hlen', hr', hga⟩ := hg.place hcut ha em
  rw [hlen] at hlen' hga
  have htake : (A ++ o' :: (B ++ C)).take i = pre' := by rw [e', ← hlen', List.take_left]
  refine ⟨a, a', b1, b2, c1, c2, hga, ?_, ?_, ?_, ?_, ha, htake ▸ hr', by omega⟩
  · exact (C91_bytes _ _ L h hl _ _).2 ⟨i, _, _, _, a, _, hcut, hlen, ha, em, Nat.le_refl _, by simp⟩
  · exact (C91_bytes _ _ L h hl _ _).2 ⟨i, _, _, _, a, _, hcut, hlen, ha, em, by omega, by simp⟩
  · exact (C91_bytes _ _ L' h' hl' _ _).2 ⟨i, _, _, _, a', _, e', hlen', hr', em', Nat.le_refl _, by simp⟩
  · exact (C91_bytes _ _ L' h' hl' _ _).2 ⟨i, _, _, _, a', _, e', hlen', hr', em', by omega, by simp⟩

example : ([callHere] ++ org200 :: ([db7, here, jpHere] ++ [org300, callHere]))[4]? = some jpHere ∧
    TakesAddress "jp".toList [.identifier "here".toList] "here".toList 0x1000 ∧
    0x1201 + (0x210 : U12).toNat = 0x1211 + (0x200 : U12).toNat :=
  ⟨rfl, .jp (by decide), rfl⟩

/-- C115: the bytes of the section are at `k` or at `k'`, all other bytes are at the same addresses, in the same order. If no
instruction names a label that goes along, they are the same bytes. -/
theorem C115_image (A B C : List Node) (o o' : Node) (k k' : U12) (hg : Rebased A o o' B C k k') (ranges ranges' : List DataRange)
    (h : assemble (A ++ o :: (B ++ C)) = .ret (.ok ranges)) (h' : assemble (A ++ o' :: (B ++ C)) = .ret (.ok ranges')) :
    ∃ u u' bytes bytes' v v', image ranges = u ++ (placeAt k.toNat bytes ++ v) ∧
      image ranges' = u' ++ (placeAt k'.toNat bytes' ++ v') ∧
      (∀ L, LabelsOf (A ++ o :: (B ++ C)) L → EmitsBlock L B bytes) ∧
      (∀ L, LabelsOf (A ++ o' :: (B ++ C)) L → EmitsBlock L B bytes') ∧
      u.map Prod.fst = u'.map Prod.fst ∧ bytes.length = bytes'.length ∧ v.map Prod.fst = v'.map Prod.fst ∧
      ((∀ i, NamesNone (A ++ o :: (B ++ C)) B i) → u = u' ∧ bytes = bytes' ∧ v = v') := by
  obtain ⟨L, secs, hc, hl, hs, rfl⟩ := assemble_ok_iff.1 h
  obtain ⟨L', secs', hc', hl', hs', rfl⟩ := assemble_ok_iff.1 h'
  have hlab := hg.labels hc hc' hl hl'
  have hd := (clean_iff.1 hc).1
  obtain ⟨a, ha⟩ := reaches_exists (nodes := A) (fun l s xs hm => hd l s xs (by simp [hm])) 0
  obtain ⟨b, hb⟩ := reaches_exists (nodes := B) (fun l s xs hm => hd l s xs (by simp [hm])) k.toNat
  have hw := sections_image hs
  have hw' := sections_image hs'
  rw [image_nonEmpty, image_nonEmpty]
  have step : ∀ {o o' : Node} {k k' : U12} {L : LabelMap} {ws : List (Nat × U8)}, Rebased A o o' B C k k' →
      Writes L (o :: (B ++ C)) a ws → Writes L (B ++ C) k.toNat ws := by
    intro o o' k k' L ws hg hw
    obtain ⟨l, s, xs, rfl, hk⟩ := hg.old
    cases hw with
    | org hk' hw => cases means_unique hk hk'; exact hw
    | emit he _ => exact (emits_not_org he hk).elim
  obtain ⟨u, r1, e1, hu1, hr1⟩ := writes_append ha hw
  obtain ⟨u', r1', e1', hu1', hr1'⟩ := writes_append ha hw'
  have hr1 := step hg hr1
  have hr1' := step hg.symm hr1'
  obtain ⟨m1, v, e2, hm1, hv⟩ := writes_append hb hr1
  obtain ⟨j, rfl, hj⟩ := noOrg_reaches hg.section_end hb
  obtain ⟨m1', v', e2', hm1', hv'⟩ := writes_append (hj k'.toNat) hr1'
  obtain ⟨bytes, hmb, rfl⟩ := (writes_block hg.section_end).1 hm1
  obtain ⟨bytes', hmb', rfl⟩ := (writes_block hg.section_end).1 hm1'
  have hcong : ∀ {L1 L2 : LabelMap} {ns : List Node} {bs : List U8}, (∀ s, L2.get s = L1.get s) → EmitsBlock L1 ns bs →
      EmitsBlock L2 ns bs := by
    intro L1 L2 ns bs hg h
    induction h with
    | nil => exact .nil
    | cons he _ ih => exact .cons (emits_agree (fun _ _ _ s _ _ => hg s) he) ih
  have hv2 := writes_from (b := k'.toNat + j) hg.remainder hv
  refine ⟨u, u', bytes, bytes', v, v', by rw [e1, e2], by rw [e1', e2'], ?_, ?_, writes_addresses hu1 hu1', ?_, writes_addresses hv2 hv', ?_⟩
  · intro L2 hl2
    exact hcong (fun s => (labelsOf_congr hl2 hl) s) hmb
  · intro L2 hl2
    exact hcong (fun s => (labelsOf_congr hl2 hl') s) hmb'
  · have h1 := reaches_unique (hj 0) (emitsBlock_reaches hmb 0)
    have h2 := reaches_unique (hj 0) (emitsBlock_reaches hmb' 0)
    omega
  · intro hn
    have hmem : ∀ l m fs s, .instruction l m fs ∈ A ++ o :: (B ++ C) → .identifier s ∈ fs → ¬ AddressLabel B s := by
      intro l m fs s hm hf
      obtain ⟨i, hi⟩ := List.mem_iff_getElem?.1 hm
      exact hn i l m fs s hi hf
    have hsame : ∀ ns, (∀ n ∈ ns, n ∈ A ++ o :: (B ++ C)) → SameUses ns L L' := fun ns hns l m fs s hm hf =>
      (hlab s).2 (hmem l m fs s (hns _ hm) hf)
    refine ⟨(writes_unique hu1' (writes_agree (hsame A fun n hn => by simp [hn]) hu1)).symm, ?_,
      (writes_unique hv' (writes_agree (hsame C fun n hn => by simp [hn]) hv2)).symm⟩
    have w1 := writes_agree (hsame B fun n hn => by simp [hn]) ((writes_block hg.section_end (a := 0)).2 ⟨_, hmb, rfl⟩)
    have w2 := (writes_block hg.section_end (a := 0)).2 ⟨_, hmb', rfl⟩
    have := congrArg (List.map Prod.snd) (writes_unique w1 w2)
    have hp : ∀ (a : Nat) (bs : List U8), (placeAt a bs).map Prod.snd = bs := by
      intro a bs
      induction bs generalizing a with
      | nil => rfl
      | cons b bs ih => simp [placeAt, ih]
    rwa [hp, hp] at this

example : assemble ([callHere] ++ org200 :: ([db7, here, jpHere] ++ [org300, callHere])) =
      .ret (.ok [⟨0, [0x22, 0x01]⟩, ⟨0x200, [7, 0x12, 0x01]⟩, ⟨0x300, [0x22, 0x01]⟩]) ∧
    assemble ([callHere] ++ org210 :: ([db7, here, jpHere] ++ [org300, callHere])) =
      .ret (.ok [⟨0, [0x22, 0x11]⟩, ⟨0x210, [7, 0x12, 0x11]⟩, ⟨0x300, [0x22, 0x11]⟩]) := ⟨old, new⟩

/-- C115: between two labels of a section there are as many bytes as their values are apart. -/
theorem C115_distance (p q r : List Node) (l l' : Loc) (a b : Str) (ranges : List DataRange) (L : LabelMap)
    (h : assemble (p ++ .label l a :: (q ++ .label l' b :: r)) = .ret (.ok ranges))
    (hl : LabelsOf (p ++ .label l a :: (q ++ .label l' b :: r)) L) (hq : NoOrg q)
    (ha : ∀ c, ¬ ConstantNext (q ++ .label l' b :: r) c) (hb : ∀ c, ¬ ConstantNext r c) :
    ∃ (v w : U12) (bytes : List U8), L.get a = some v ∧ L.get b = some w ∧ EmitsBlock L q bytes ∧
      w.toNat = v.toNat + bytes.length := by
  obtain ⟨L1, secs, hc, hl1, hs, rfl⟩ := assemble_ok_iff.1 h
  have hs := sections_congr (labelsOf_congr hl1 hl) hs
  obtain ⟨hd, _, _, hf⟩ := clean_iff.1 hc
  obtain ⟨x, hx⟩ := reaches_exists (nodes := p) (fun l s xs hm => hd l s xs (by simp [hm])) 0
  have hxa : Reaches (p ++ [.label l a]) 0 x := reaches_append.2 ⟨x, hx, .cons .label .nil⟩
  have hw := sections_image hs
  rw [show p ++ .label l a :: (q ++ .label l' b :: r) = (p ++ [.label l a]) ++ (q ++ .label l' b :: r) by simp] at hw
  obtain ⟨_, ws, _, _, hw⟩ := writes_append hxa hw
  obtain ⟨y, hy⟩ := reaches_exists (nodes := q) (fun l s xs hm => hd l s xs (by simp [hm])) x
  obtain ⟨ws', _, _, hw, _⟩ := writes_append hy hw
  obtain ⟨bytes, he, rfl⟩ := (writes_block hq).1 hw
  have hy' := reaches_unique hy (emitsBlock_reaches he x)
  have fx : x ≤ 0xFFF := hf p _ x rfl hx
  have fy : y ≤ 0xFFF := hf (p ++ .label l a :: q) (.label l' b :: r) y (by simp) (reaches_append.2 ⟨x, hx, .cons .label hy⟩)
  have e1 : (BitVec.ofNat 12 x).toNat = x := by rw [BitVec.toNat_ofNat, Nat.mod_eq_of_lt (by omega)]
  have e2 : (BitVec.ofNat 12 y).toNat = y := by rw [BitVec.toNat_ofNat, Nat.mod_eq_of_lt (by omega)]
  refine ⟨BitVec.ofNat 12 x, BitVec.ofNat 12 y, bytes, ?_, ?_, he, by rw [e1, e2, hy']⟩
  · rw [hl]
    exact labelValue_iff.2 ⟨p, l, _, rfl, .inr ⟨ha, by rw [e1]; exact hx⟩⟩
  · rw [hl]
    exact labelValue_iff.2 ⟨p ++ .label l a :: q, l', r, by simp, .inr ⟨hb, by rw [e2]; exact reaches_append.2 ⟨x, hx, .cons .label hy⟩⟩⟩

example : assemble ([org200, db7] ++ .label loc "here".toList :: ([jpHere, db9] ++ .label loc "end".toList :: [])) =
      .ret (.ok [⟨0x200, [7, 0x12, 0x01, 9]⟩]) ∧
    defineLabels ([org200, db7] ++ .label loc "here".toList :: ([jpHere, db9] ++ .label loc "end".toList :: [])) =
      .ok [("end".toList, 0x204), ("here".toList, 0x201)] := ⟨rfl, rfl⟩

/-- C115: the same for source files, in which the line with the `.org` of a section is changed. If the labels of the section
are only used as addresses, the changed file has an output exactly if the section ends within memory. The bytes outside the
section are at the same addresses as before, and if no label that goes along is used, all bytes are the same. -/
theorem C115_text [Target] (file a x x' b c : Str) (A B C : List Node) (o o' : Node) (ha : WholeLines a) (hx : WholeLines x)
    (hx' : WholeLines x') (hb : WholeLines b) (hA : Statements a A) (hX : Statements x [o]) (hX' : Statements x' [o'])
    (hB : Statements b B) (hC : Statements c C) (k k' : U12) (hg : Rebased A o o' B C k k')
    (hu : UsedAsAddresses (A ++ o :: (B ++ C)) B) (bytes : List (Nat × U8))
    (h : Describes wordBinary file (a ++ (x ++ (b ++ c))) bytes) :
    ((∃ bytes', Describes wordBinary file (a ++ (x' ++ (b ++ c))) bytes') ↔ ∀ e, Reaches B k'.toNat e → e ≤ 0xFFF) ∧
    ∀ bytes', Describes wordBinary file (a ++ (x' ++ (b ++ c))) bytes' → ∃ u u' d d' v v',
      bytes = u ++ (placeAt k.toNat d ++ v) ∧ bytes' = u' ++ (placeAt k'.toNat d' ++ v') ∧
      u.map Prod.fst = u'.map Prod.fst ∧ d.length = d'.length ∧ Reaches B 0 d.length ∧ v.map Prod.fst = v'.map Prod.fst ∧
      ((∀ i, NamesNone (A ++ o :: (B ++ C)) B i) → u = u' ∧ d = d' ∧ v = v') := by
  have cbc := hasCut_append hb (statements_cut hB) (statements_cut hC)
  have c1 := hasCut_append ha (statements_cut hA) (hasCut_append hx (statements_cut hX) cbc)
  have c2 := hasCut_append ha (statements_cut hA) (hasCut_append hx' (statements_cut hX') cbc)
  obtain ⟨r, h1, rfl⟩ := (hasCut_describes c1 _).1 h
  refine ⟨?_, ?_⟩
  · rw [← C115_accepted A B C o o' k k' hg r h1 hu]
    constructor
    · rintro ⟨bytes', h'⟩
      obtain ⟨r', h2, _⟩ := (hasCut_describes c2 _).1 h'
      exact ⟨r', h2⟩
    · rintro ⟨r', h2⟩
      exact ⟨_, (hasCut_describes c2 _).2 ⟨r', h2, rfl⟩⟩
  · intro bytes' h'
    obtain ⟨r', h2, rfl⟩ := (hasCut_describes c2 _).1 h'
    obtain ⟨u, u', d, d', v, v', e1, e2, hd, _, e3, e4, e5, e6⟩ := C115_image A B C o o' k k' hg r r' h1 h2
    obtain ⟨L, _, _, hl, _⟩ := assemble_ok_iff.1 h1
    have := emitsBlock_reaches (hd L hl) 0
    rw [Nat.zero_add] at this
    exact ⟨u, u', d, d', v, v', e1, e2, e3, e4, this, e5, e6⟩

example : WholeLines ".org $200\n".toList ∧ WholeLines ".org $210\n".toList ∧
    Statements ".org $200\n".toList [.directive ⟨[], 1, 2, 3⟩ "org".toList [.numeric 0x200]] ∧
    Statements ".org $210\n".toList [.directive ⟨[], 1, 2, 3⟩ "org".toList [.numeric 0x210]] ∧
    Rebased [] (.directive ⟨[], 1, 2, 3⟩ "org".toList [.numeric 0x200]) (.directive ⟨[], 1, 2, 3⟩ "org".toList [.numeric 0x210])
      [] [] 0x200 0x210 :=
  ⟨.inr ⟨".org $200".toList, rfl⟩, .inr ⟨".org $210".toList, rfl⟩, ⟨[], _, rfl, rfl⟩, ⟨[], _, rfl, rfl⟩,
    ⟨_, _, _, rfl, means_iff.1 rfl⟩, ⟨_, _, _, rfl, means_iff.1 rfl⟩, fun _ _ _ h => (nomatch h), .inl rfl⟩

end C8S
