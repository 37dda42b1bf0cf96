import Verif.Proofs.Swap
import Verif.Props.Rebase

/- Property C116: two neighbouring pieces of a program change places. -/

namespace C8S

open Spec LayoutExample EditExample InsertExample

namespace SwapExample

/-- `jp here` and `.db 7`, `here:` change places, between `.org $200` and `call here`. -/
theorem pieces : Neighbours [org200] [jpHere] [db7, here] [callHere] 2 1 where
  left := by
    intro l s xs h
    rw [List.mem_singleton] at h
    cases h
  right := by
    intro l s xs h
    simp only [db7, here, List.mem_cons, List.not_mem_nil, or_false] at h
    rcases h with h | h
    · cases h
      decide
    · cases h
  left_size := .cons .instruction .nil
  right_size := .cons (.db db7_means) (.cons .label .nil)
  left_whole := by
    intro c h
    cases h
  right_whole := by
    intro c h
    cases h with
    | intro h => cases means_unique h db7_means
  rest_whole := by
    intro c h
    cases h

theorem old : assemble ([org200] ++ ([jpHere] ++ ([db7, here] ++ [callHere]))) =
    .ret (.ok [⟨0x200, [0x12, 0x03, 7, 0x22, 0x03]⟩]) := by rfl

theorem new : assemble ([org200] ++ ([db7, here] ++ ([jpHere] ++ [callHere]))) =
    .ret (.ok [⟨0x200, [7, 0x12, 0x01, 0x22, 0x01]⟩]) := by rfl

theorem label : AddressLabel [db7, here] "here".toList :=
  ⟨[db7], loc, [], rfl, fun c h => by cases h⟩

theorem uses : UsedAsAddresses ([org200] ++ ([jpHere] ++ ([db7, here] ++ [callHere]))) [db7, here] := by
  intro l m fs s hm hs _
  simp only [callHere, org200, db7, here, jpHere, List.cons_append, List.nil_append, List.mem_cons, List.not_mem_nil,
    or_false] at hm
  rcases hm with h | h | h | h | h
  all_goals cases h
  all_goals simp only [List.mem_cons, List.not_mem_nil, or_false, Field.identifier.injEq] at hs
  all_goals subst hs
  · exact ⟨_, .jp (by decide)⟩
  · exact ⟨_, .call (by decide)⟩

theorem unused : UsedAsAddresses ([org200] ++ ([jpHere] ++ ([db7, here] ++ [callHere]))) [jpHere] := by
  rintro l m fs s _ _ ⟨p, l', q, e, _⟩
  have : .label l' s ∈ [jpHere] := by rw [e]; simp
  simp [jpHere] at this

end SwapExample

open SwapExample

/-- C116: when pieces of `m` and `n` bytes change places, labels defined as addresses in the first grow by `n`, those in the
second shrink by `m`. All other labels, and all constants, keep their values. -/
theorem C116_labels (A X Y B : List Node) (m n : Nat) (hg : Neighbours A X Y B m n) (L L' : LabelMap)
    (h : defineLabels (A ++ (X ++ (Y ++ B))) = .ok L) (h' : defineLabels (A ++ (Y ++ (X ++ B))) = .ok L') (name : Str) :
    (AddressLabel X name → ∃ v v' : U12, L.get name = some v ∧ L'.get name = some v' ∧ v'.toNat = v.toNat + n) ∧
    (AddressLabel Y name → ∃ v v' : U12, L.get name = some v ∧ L'.get name = some v' ∧ v'.toNat + m = v.toNat) ∧
    (¬ AddressLabel X name → ¬ AddressLabel Y name → L'.get name = L.get name) := by
  obtain ⟨hc, hl⟩ := defineLabels_ok h
  obtain ⟨hc', hl'⟩ := defineLabels_ok h'
  refine ⟨hg.left_label hc hl hl', fun hy => ?_, hg.other_label hl hl'⟩
  obtain ⟨v', v, h1, h2, h3⟩ := hg.symm.left_label hc' hl' hl hy
  exact ⟨v, v', h2, h1, h3.symm⟩

example : defineLabels ([org200] ++ ([jpHere] ++ ([db7, here] ++ [callHere]))) = .ok [("here".toList, 0x203)] ∧
    defineLabels ([org200] ++ ([db7, here] ++ ([jpHere] ++ [callHere]))) = .ok [("here".toList, 0x201)] ∧
    AddressLabel [db7, here] "here".toList ∧ (0x201 : U12).toNat + 2 = (0x203 : U12).toNat :=
  ⟨rfl, rfl, label, rfl⟩

/-- C116: if the labels of the pieces are only used as addresses, both orders are accepted or neither is. -/
theorem C116_accepted (A X Y B : List Node) (m n : Nat) (hg : Neighbours A X Y B m n)
    (hx : UsedAsAddresses (A ++ (X ++ (Y ++ B))) X) (hy : UsedAsAddresses (A ++ (X ++ (Y ++ B))) Y) :
    (∃ ranges, assemble (A ++ (X ++ (Y ++ B))) = .ret (.ok ranges)) ↔
      ∃ ranges', assemble (A ++ (Y ++ (X ++ B))) = .ret (.ok ranges') := by
  have hmem : ∀ n, n ∈ A ++ (Y ++ (X ++ B)) → n ∈ A ++ (X ++ (Y ++ B)) := by
    intro n hm
    simp only [List.mem_append] at hm ⊢
    rcases hm with hm | hm | hm | hm
    · exact .inl hm
    · exact .inr (.inr (.inl hm))
    · exact .inr (.inl hm)
    · exact .inr (.inr (.inr hm))
  constructor
  · rintro ⟨ranges, h⟩
    exact swap_accepted hg hx hy ranges h
  · rintro ⟨ranges, h⟩
    exact swap_accepted hg.symm (fun l m fs s hm => hy l m fs s (hmem _ hm)) (fun l m fs s hm => hx l m fs s (hmem _ hm)) ranges h

example : ∃ ranges', assemble ([org200] ++ ([db7, here] ++ ([jpHere] ++ [callHere]))) = .ret (.ok ranges') :=
  (C116_accepted _ _ _ _ _ _ pieces unused uses).1 ⟨_, old⟩

/-- C116: a statement that names none of these labels puts the same bytes in both programs, at the address it has there. -/
theorem C116_kept (A X Y B : List Node) (m n : Nat) (hg : Neighbours A X Y B m n) (L L' : LabelMap)
    (h : defineLabels (A ++ (X ++ (Y ++ B))) = .ok L) (h' : defineLabels (A ++ (Y ++ (X ++ B))) = .ok L') (i x i' x' : Nat) (b : U8)
    (hn : NamesNone (A ++ (X ++ (Y ++ B))) X i) (hn' : NamesNone (A ++ (X ++ (Y ++ B))) Y i) (hx : CarriedOver A X Y m n i x i' x') :
    Puts L (A ++ (X ++ (Y ++ B))) i x b ↔ Puts L' (A ++ (Y ++ (X ++ B))) i' x' b := by
  have hl := (defineLabels_ok h).2
  have hl' := (defineLabels_ok h').2
  refine ⟨swap_kept hg hl hl' (fun l m fs s hi hf => ⟨hn l m fs s hi hf, hn' l m fs s hi hf⟩) hx, fun hp => ?_⟩
  refine swap_kept hg.symm hl' hl (fun l m fs s hi hf => ?_) (carried_symm hx) hp
  have same : (A ++ (X ++ (Y ++ B)))[i]? = (A ++ (Y ++ (X ++ B)))[i']? := by
    unfold CarriedOver at hx
    simp only [List.getElem?_append]
    rcases hx with ⟨h1, rfl, _⟩ | ⟨h1, h2, rfl, _⟩ | ⟨h1, h2, rfl, _⟩ | ⟨h1, rfl, _⟩
    · simp [h1]
    · rw [if_neg (by omega), if_pos (by omega), if_neg (by omega), if_neg (by omega), if_pos (by omega)]
      congr 1
      omega
    · rw [if_neg (by omega), if_neg (by omega), if_pos (by omega), if_neg (by omega), if_pos (by omega)]
      congr 1
      omega
    · rw [if_neg (by omega), if_neg (by omega), if_neg (by omega), if_neg (by omega), if_neg (by omega), if_neg (by omega)]
      congr 1
      omega
  rw [← same] at hi
  exact ⟨hn' l m fs s hi hf, hn l m fs s hi hf⟩

example : NamesNone ([org200] ++ ([jpHere] ++ ([db7, here] ++ [callHere]))) [jpHere] 2 ∧
    NamesNone ([org200] ++ ([jpHere] ++ ([db7, here] ++ [callHere]))) [db7, here] 2 ∧
    CarriedOver [org200] [jpHere] [db7, here] 2 1 2 0x202 1 0x200 :=
  ⟨(fun l m fs s h => by cases h), (fun l m fs s h => by cases h), .inr (.inr (.inl ⟨by decide, by decide, rfl, rfl⟩))⟩

/-- C116: an instruction that takes a label of a piece as an address changes its word by the number of bytes of the other
piece. -/
theorem C116_patched (A X Y B : List Node) (m n : Nat) (hg : Neighbours A X Y B m n) (ranges ranges' : List DataRange)
    (h : assemble (A ++ (X ++ (Y ++ B))) = .ret (.ok ranges)) (h' : assemble (A ++ (Y ++ (X ++ B))) = .ret (.ok ranges'))
    (i base : Nat) (l : Loc) (mn s : Str) (fs : List Field) (hi : (A ++ (X ++ (Y ++ B)))[i]? = some (.instruction l mn fs))
    (ht : TakesAddress mn fs s base) (hs : AddressLabel X s ∨ AddressLabel Y s) :
    ∃ (a i' a' : Nat) (hi lo hi' lo' : U8), CarriedOver A X Y m n i a i' a' ∧
      (A ++ (Y ++ (X ++ B)))[i']? = some (.instruction l mn fs) ∧
      Reaches ((A ++ (X ++ (Y ++ B))).take i) 0 a ∧ Reaches ((A ++ (Y ++ (X ++ B))).take i') 0 a' ∧
      (a, hi) ∈ image ranges ∧ (a + 1, lo) ∈ image ranges ∧ (a', hi') ∈ image ranges' ∧ (a' + 1, lo') ∈ image ranges' ∧
      (AddressLabel X s → hi'.toNat * 256 + lo'.toNat = hi.toNat * 256 + lo.toNat + n) ∧
      (AddressLabel Y s → hi'.toNat * 256 + lo'.toNat + m = hi.toNat * 256 + lo.toNat) := by
  obtain ⟨L, secs, hc, hl, hs1, rfl⟩ := assemble_ok_iff.1 h
  obtain ⟨L', secs', hc', hl', hs1', rfl⟩ := assemble_ok_iff.1 h'
  have hX : AddressLabel X s → ∃ v v' : U12, L.get s = some v ∧ L'.get s = some v' ∧ v'.toNat = v.toNat + n :=
    hg.left_label hc hl hl'
  have hY : AddressLabel Y s → ∃ v v' : U12, L'.get s = some v ∧ L.get s = some v' ∧ v'.toNat = v.toNat + m :=
    hg.symm.left_label hc' hl' hl
  obtain ⟨v, v', hv, hv'⟩ : ∃ v v' : U12, L.get s = some v ∧ L'.get s = some v' := by
    rcases hs with hs | hs
    · obtain ⟨v, v', h1, h2, _⟩ := hX hs
      exact ⟨v, v', h1, h2⟩
    · obtain ⟨v, v', h1, h2, _⟩ := hY hs
      exact ⟨v', v, h2, h1⟩
  have w := takesAddress_encodes ht hv
  have w' := takesAddress_encodes ht hv'
  obtain ⟨b1, b2, e1⟩ := encodes_bytes w
  obtain ⟨c1, c2, e2⟩ := encodes_bytes w'
  have hcut : A ++ (X ++ (Y ++ B)) = (A ++ (X ++ (Y ++ B))).take i ++ .instruction l mn fs :: (A ++ (X ++ (Y ++ B))).drop (i + 1) := by
    obtain ⟨hlt, hget⟩ := List.getElem?_eq_some_iff.1 hi
    rw [← hget, ← List.drop_eq_getElem_cons hlt, List.take_append_drop]
  have hlen : ((A ++ (X ++ (Y ++ B))).take i).length = i := by
    obtain ⟨hlt, _⟩ := List.getElem?_eq_some_iff.1 hi
    rw [List.length_take]
    omega
  obtain ⟨a, ha⟩ := reaches_exists (nodes := (A ++ (X ++ (Y ++ B))).take i)
    (fun l s xs hm => (clean_iff.1 hc).1 l s xs (List.mem_of_mem_take hm)) 0
  have em : Emits L (.instruction l mn fs) [b1, b2] := .instruction (e1 ▸ w)
  have em' : Emits L' (.instruction l mn fs) [c1, c2] := .instruction (e2 ▸ w')
  obtain ⟨pre', post', a', e', hr', hga⟩ := hg.place hcut ha
  rw [hlen] at hga
  have htake : (A ++ (Y ++ (X ++ B))).take pre'.length = pre' := by rw [e', List.take_left]
  refine ⟨a, pre'.length, a', b1, b2, c1, c2, hga, by rw [e']; simp, ha, htake.symm ▸ hr', ?_, ?_, ?_, ?_, ?_, ?_⟩
  · exact (C91_bytes _ _ L h hl _ _).2 ⟨i, _, _, _, a, _, hcut, hlen, ha, em, Nat.le_refl _, by simp⟩
  · exact (C91_bytes _ _ L h hl _ _).2 ⟨i, _, _, _, a, _, hcut, hlen, ha, em, by omega, by simp⟩
  · exact (C91_bytes _ _ L' h' hl' _ _).2 ⟨_, _, _, _, a', _, e', rfl, hr', em', Nat.le_refl _, by simp⟩
  · exact (C91_bytes _ _ L' h' hl' _ _).2 ⟨_, _, _, _, a', _, e', rfl, hr', em', by omega, by simp⟩
  · intro hx
    obtain ⟨u, u', h1, h2, h3⟩ := hX hx
    cases hv.symm.trans h1
    cases hv'.symm.trans h2
    omega
  · intro hy
    obtain ⟨u, u', h1, h2, h3⟩ := hY hy
    cases hv.symm.trans h2
    cases hv'.symm.trans h1
    omega

example : ([org200] ++ ([jpHere] ++ ([db7, here] ++ [callHere])))[1]? = some jpHere ∧
    TakesAddress "jp".toList [.identifier "here".toList] "here".toList 0x1000 ∧ 0x1201 + 2 = 0x1203 :=
  ⟨rfl, .jp (by decide), rfl⟩

/-- C116: the bytes of the pieces change places, all others stay where they are. If no instruction names a label of the pieces,
all bytes are the same. -/
theorem C116_image (A X Y B : List Node) (m n : Nat) (hg : Neighbours A X Y B m n) (ranges ranges' : List DataRange)
    (h : assemble (A ++ (X ++ (Y ++ B))) = .ret (.ok ranges)) (h' : assemble (A ++ (Y ++ (X ++ B))) = .ret (.ok ranges')) :
    ∃ a u x y v u' x' y' v', Reaches A 0 a ∧ x.length = m ∧ y.length = n ∧ x'.length = m ∧ y'.length = n ∧
      image ranges = u ++ (placeAt a x ++ (placeAt (a + m) y ++ v)) ∧
      image ranges' = u' ++ (placeAt a y' ++ (placeAt (a + n) x' ++ v')) ∧
      (∀ L, LabelsOf (A ++ (X ++ (Y ++ B))) L → EmitsBlock L X x ∧ EmitsBlock L Y y) ∧
      (∀ L', LabelsOf (A ++ (Y ++ (X ++ B))) L' → EmitsBlock L' X x' ∧ EmitsBlock L' Y y') ∧
      u.map Prod.fst = u'.map Prod.fst ∧ v.map Prod.fst = v'.map Prod.fst ∧
      ((∀ i, NamesNone (A ++ (X ++ (Y ++ B))) X i ∧ NamesNone (A ++ (X ++ (Y ++ B))) Y i) → u = u' ∧ x = x' ∧ y = y' ∧ v = v') := by
  obtain ⟨L, secs, hc, hl, hs, rfl⟩ := assemble_ok_iff.1 h
  obtain ⟨L', secs', hc', hl', hs', rfl⟩ := assemble_ok_iff.1 h'
  have hd := (clean_iff.1 hc).1
  obtain ⟨a, ha⟩ := reaches_exists (nodes := A) (fun l s xs hm => hd l s xs (by simp [hm])) 0
  have hw := sections_image hs
  have hw' := sections_image hs'
  rw [image_nonEmpty, image_nonEmpty]
  obtain ⟨u, r, e1, hu, hr⟩ := writes_append ha hw
  obtain ⟨x, r2, e2, hx, hr⟩ := writes_append (hg.size_left a) hr
  obtain ⟨y, v, e3, hy, hv⟩ := writes_append (hg.size_right (a + m)) hr
  obtain ⟨u', r', e1', hu', hr'⟩ := writes_append ha hw'
  obtain ⟨y', r2', e2', hy', hr'⟩ := writes_append (hg.size_right a) hr'
  obtain ⟨x', v', e3', hx', hv'⟩ := writes_append (hg.size_left (a + n)) hr'
  rw [show a + n + m = a + m + n by omega] at hv'
  obtain ⟨x, bx, rfl⟩ := (writes_block hg.left).1 hx
  obtain ⟨y, by_, rfl⟩ := (writes_block hg.right).1 hy
  obtain ⟨x', bx', rfl⟩ := (writes_block hg.left).1 hx'
  obtain ⟨y', by', rfl⟩ := (writes_block hg.right).1 hy'
  have hcong : ∀ {L1 L2 : LabelMap} {ns : List Node} {bs : List U8}, (∀ s, L2.get s = L1.get s) → EmitsBlock L1 ns bs →
      EmitsBlock L2 ns bs := by
    intro L1 L2 ns bs hg h
    induction h with
    | nil => exact .nil
    | cons he _ ih => exact .cons (emits_agree (fun _ _ _ s _ _ => hg s) he) ih
  have len : ∀ {L1 : LabelMap} {ns : List Node} {bs : List U8} {k : Nat}, Reaches ns 0 k → EmitsBlock L1 ns bs → bs.length = k := by
    intro L1 ns bs k h1 h2
    have := reaches_unique h1 (emitsBlock_reaches h2 0)
    omega
  refine ⟨a, u, x, y, v, u', x', y', v', ha, len hg.left_size bx, len hg.right_size by_, len hg.left_size bx',
    len hg.right_size by', by rw [e1, e2, e3], by rw [e1', e2', e3'], ?_, ?_, writes_addresses hu hu', writes_addresses hv hv', ?_⟩
  · intro L2 hl2
    have g := fun s => (labelsOf_congr hl2 hl) s
    exact ⟨hcong g bx, hcong g by_⟩
  · intro L2 hl2
    have g := fun s => (labelsOf_congr hl2 hl') s
    exact ⟨hcong g bx', hcong g by'⟩
  · intro hn
    have hsame : ∀ ns, (∀ n ∈ ns, n ∈ A ++ (X ++ (Y ++ B))) → SameUses ns L L' := by
      intro ns hns l m fs s hm hf
      obtain ⟨i, hi⟩ := List.mem_iff_getElem?.1 (hns _ hm)
      exact hg.other_label hl hl' ((hn i).1 l m fs s hi hf) ((hn i).2 l m fs s hi hf)
    have hp : ∀ (a : Nat) (bs : List U8), (placeAt a bs).map Prod.snd = bs := by
      intro a bs
      induction bs generalizing a with
      | nil => rfl
      | cons b bs ih => simp [placeAt, ih]
    have same : ∀ {ns : List Node} {bs bs' : List U8}, NoOrg ns → (∀ n ∈ ns, n ∈ A ++ (X ++ (Y ++ B))) → EmitsBlock L ns bs →
        EmitsBlock L' ns bs' → bs = bs' := by
      intro ns bs bs' ho hns h1 h2
      have w1 := writes_agree (hsame ns hns) ((writes_block ho (a := 0)).2 ⟨_, h1, rfl⟩)
      have := congrArg (List.map Prod.snd) (writes_unique w1 ((writes_block ho (a := 0)).2 ⟨_, h2, rfl⟩))
      rwa [hp, hp] at this
    exact ⟨(writes_unique hu' (writes_agree (hsame A fun n hn => by simp [hn]) hu)).symm,
      same hg.left (fun n hn => by simp [hn]) bx bx', same hg.right (fun n hn => by simp [hn]) by_ by',
      (writes_unique hv' (writes_agree (hsame B fun n hn => by simp [hn]) hv)).symm⟩

example : assemble ([org200] ++ ([jpHere] ++ ([db7, here] ++ [callHere]))) = .ret (.ok [⟨0x200, [0x12, 0x03, 7, 0x22, 0x03]⟩]) ∧
    assemble ([org200] ++ ([db7, here] ++ ([jpHere] ++ [callHere]))) = .ret (.ok [⟨0x200, [7, 0x12, 0x01, 0x22, 0x01]⟩]) :=
  ⟨old, new⟩

/-- C116: the same for source files in which neighbouring blocks of lines change places. -/
theorem C116_text [Target] (file a x y b : Str) (A X Y B : List Node) (ha : WholeLines a) (hx : WholeLines x) (hy : WholeLines y)
    (hA : Statements a A) (hX : Statements x X) (hY : Statements y Y) (hB : Statements b B) (m n : Nat) (hg : Neighbours A X Y B m n)
    (ux : UsedAsAddresses (A ++ (X ++ (Y ++ B))) X) (uy : UsedAsAddresses (A ++ (X ++ (Y ++ B))) Y) :
    ((∃ bytes, Describes wordBinary file (a ++ (x ++ (y ++ b))) bytes) ↔ ∃ bytes', Describes wordBinary file (a ++ (y ++ (x ++ b))) bytes') ∧
    ∀ bytes bytes', Describes wordBinary file (a ++ (x ++ (y ++ b))) bytes → Describes wordBinary file (a ++ (y ++ (x ++ b))) bytes' →
      ∃ at_ u d e v u' d' e' v', Reaches A 0 at_ ∧ d.length = m ∧ e.length = n ∧ d'.length = m ∧ e'.length = n ∧
        bytes = u ++ (placeAt at_ d ++ (placeAt (at_ + m) e ++ v)) ∧
        bytes' = u' ++ (placeAt at_ e' ++ (placeAt (at_ + n) d' ++ v')) ∧
        u.map Prod.fst = u'.map Prod.fst ∧ v.map Prod.fst = v'.map Prod.fst ∧
        ((∀ i, NamesNone (A ++ (X ++ (Y ++ B))) X i ∧ NamesNone (A ++ (X ++ (Y ++ B))) Y i) → u = u' ∧ d = d' ∧ e = e' ∧ v = v') := by
  have c1 := hasCut_append ha (statements_cut hA) (hasCut_append hx (statements_cut hX) (hasCut_append hy (statements_cut hY) (statements_cut hB)))
  have c2 := hasCut_append ha (statements_cut hA) (hasCut_append hy (statements_cut hY) (hasCut_append hx (statements_cut hX) (statements_cut hB)))
  refine ⟨?_, ?_⟩
  · have := C116_accepted A X Y B m n hg ux uy
    constructor
    · rintro ⟨bytes, h⟩
      obtain ⟨r, h1, _⟩ := (hasCut_describes c1 _).1 h
      obtain ⟨r', h2⟩ := this.1 ⟨r, h1⟩
      exact ⟨_, (hasCut_describes c2 _).2 ⟨r', h2, rfl⟩⟩
    · rintro ⟨bytes, h⟩
      obtain ⟨r, h1, _⟩ := (hasCut_describes c2 _).1 h
      obtain ⟨r', h2⟩ := this.2 ⟨r, h1⟩
      exact ⟨_, (hasCut_describes c1 _).2 ⟨r', h2, rfl⟩⟩
  · intro bytes bytes' h h'
    obtain ⟨r, h1, rfl⟩ := (hasCut_describes c1 _).1 h
    obtain ⟨r', h2, rfl⟩ := (hasCut_describes c2 _).1 h'
    obtain ⟨at_, u, d, e, v, u', d', e', v', g1, g2, g3, g4, g5, g6, g7, _, _, g8⟩ := C116_image A X Y B m n hg r r' h1 h2
    exact ⟨at_, u, d, e, v, u', d', e', v', g1, g2, g3, g4, g5, g6, g7, g8⟩

example : WholeLines ".org 9\n".toList ∧ WholeLines "cls\n".toList ∧ WholeLines ".db 7\n".toList ∧
    Statements ".org 9\n".toList [.directive ⟨[], 1, 2, 3⟩ "org".toList [.numeric 9]] ∧
    Statements "cls\n".toList [.instruction ⟨[], 1, 1, 3⟩ "cls".toList []] ∧
    Statements ".db 7\n".toList [.directive ⟨[], 1, 2, 2⟩ "db".toList [.numeric 7]] :=
  ⟨.inr ⟨".org 9".toList, rfl⟩, .inr ⟨"cls".toList, rfl⟩, .inr ⟨".db 7".toList, rfl⟩, ⟨[], _, rfl, rfl⟩, ⟨[], _, rfl, rfl⟩,
    ⟨[], _, rfl, rfl⟩⟩

end C8S
