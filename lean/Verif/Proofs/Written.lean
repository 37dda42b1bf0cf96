import Mathlib.Data.List.Flatten
import Verif.Spec.Written
import Verif.Proofs.Link
import Verif.Props.Image

/- Lemmas on the object files there can be (C125). -/

namespace C8S

open Spec

theorem rangeBlocks_bytes {a : Nat} {data : List U8} {bs : List (Nat × List U8)} (h : RangeBlocks a data bs) :
    recordBytes bs = placeAt a data ∧ ∀ b ∈ bs, 1 ≤ b.2.length ∧ b.2.length ≤ 16 ∧ b.1 + b.2.length ≤ a + data.length := by
  induction h with
  | empty => exact ⟨rfl, fun b hb => by cases hb⟩
  | last h1 h2 =>
    refine ⟨by simp [recordBytes], fun b hb => ?_⟩
    cases List.mem_singleton.1 hb
    exact ⟨h1, h2, Nat.le_refl _⟩
  | @more a bytes rest bs h1 h2 _ ih =>
    refine ⟨?_, fun b hb => ?_⟩
    · rw [placeAt_append, h1, ← ih.1]
      rfl
    · rw [List.length_append]
      rcases List.mem_cons.1 hb with rfl | hb
      · exact ⟨by simp only; omega, by simp only; omega, by simp only; omega⟩
      · have := ih.2 b hb
        exact ⟨this.1, this.2.1, by omega⟩

theorem allBlocks_bytes {ranges : List DataRange} {bs : List (Nat × List U8)} (h : AllBlocks ranges bs) :
    recordBytes bs = image ranges := by
  induction h with
  | nil => rfl
  | cons h0 _ ih =>
    simp only [recordBytes, image, List.flatMap_append, List.flatMap_cons] at ih ⊢
    rw [ih, ← (rangeBlocks_bytes h0).1]
    rfl

theorem allBlocks_recordable {ranges : List DataRange} {bs : List (Nat × List U8)} (h : AllBlocks ranges bs)
    (hr : ∀ r ∈ ranges, rangeEnd r ≤ 0xFFF) : ∀ b ∈ bs, Recordable b := by
  induction h with
  | nil => intro b hb; cases hb
  | cons h0 _ ih =>
    intro b hb
    rcases List.mem_append.1 hb with hb | hb
    · have h1 := (rangeBlocks_bytes h0).2 b hb
      have h2 := hr _ List.mem_cons_self
      simp only [rangeEnd] at h2
      exact ⟨h1.1, h1.2.1, by omega⟩
    · exact ih (fun r h => hr r (List.mem_cons_of_mem _ h)) b hb

/-- The records as ranges. -/
theorem recordRanges_blocks {records : List (Nat × List U8)} (h : ∀ b ∈ records, Recordable b) :
    AllBlocks (records.map fun b => ⟨BitVec.ofNat 12 b.1, b.2⟩) records := by
  induction records with
  | nil => exact .nil
  | cons b bs ih =>
    have h0 := h b List.mem_cons_self
    have e : (BitVec.ofNat 12 b.1).toNat = b.1 := by
      rw [BitVec.toNat_ofNat]
      have := h0.1
      have := h0.2.2
      omega
    have h1 : RangeBlocks (BitVec.ofNat 12 b.1).toNat b.2 [b] := by
      rw [e]
      exact .last h0.1 h0.2.1
    exact .cons (r := ⟨BitVec.ofNat 12 b.1, b.2⟩) h1 (ih fun c hc => h c (List.mem_cons_of_mem _ hc))

theorem recordRanges_placeable {records : List (Nat × List U8)} (h : ∀ b ∈ records, Recordable b) :
    ∀ r ∈ records.map (fun b => (⟨BitVec.ofNat 12 b.1, b.2⟩ : DataRange)), Placeable r := by
  intro r hr
  obtain ⟨b, hb, rfl⟩ := List.mem_map.1 hr
  have h0 := h b hb
  refine ⟨List.length_pos_iff.1 h0.1, ?_⟩
  simp only [rangeEnd, BitVec.toNat_ofNat]
  have := h0.1
  have := h0.2.2
  omega

theorem written_of_builds [Target] {text hex : Str} (h : Builds text hex) : ∃ records, (∀ b ∈ records, Recordable b) ∧
    NoCollision (recordBytes records) ∧ FileOf records hex ∧ HexOf hex (recordBytes records) := by
  obtain ⟨env, program, input, output, _, he, hb⟩ := h
  obtain ⟨text, hex', _, ⟨ts, P, R, _, _, h2, h3, h4⟩, hb'⟩ := run_object he
  cases utf8_inj (hb.symm.trans hb')
  obtain ⟨b, ⟨bs, lines, h5, h6, rfl⟩, rfl⟩ := dataLines_of_assembled h2 h4
  obtain ⟨_, h7, h8⟩ := C44_assembled _ _ h2 h3
  cases h4.symm.trans h7
  rw [← allBlocks_bytes h5] at h8
  refine ⟨bs, allBlocks_recordable h5 fun r hr => (ranges_bound h2 r hr).2, ?_, ⟨lines, h6, rfl⟩, h8⟩
  rw [allBlocks_bytes h5]
  exact (C41_overlap P R h2).1 h3

/-- An environment in which the text can be read and anything can be written. -/
def readsText (text : Str) : Env := ⟨fun _ => .ok (), fun _ => .ok text, fun _ => .ok (), fun _ _ => .ok ()⟩

theorem builds_of_written [Target] {records : List (Nat × List U8)} {hex : Str} (h : ∀ b ∈ records, Recordable b)
    (hn : NoCollision (recordBytes records)) (hf : FileOf records hex) : Builds (recordsSource records) hex := by
  obtain ⟨ts, P, h0, h1, h2⟩ := C65_source [] _ (recordRanges_placeable h)
  have hb := recordRanges_blocks h
  rw [allBlocks_bytes hb] at hn
  have he : (assembleFile (readsText (recordsSource records)) [] [] "-".toList).exit = .code 0 :=
    (C47_iff (readsText (recordsSource records)) [] [] "-".toList (recordsSource records) rfl rfl
      ⟨fun _ => rfl, fun _ => rfl⟩).2 ⟨_, (describes_iff _ _ _).2 ⟨ts, P, _, h0, h1, h2, rfl⟩, hn⟩
  refine ⟨readsText (recordsSource records), [], [], "-".toList, rfl, he, ?_⟩
  obtain ⟨text, hex', hr', ⟨ts', P', R', g0, g1, g2, _, g3⟩, hbytes⟩ := run_object he
  cases hr'
  cases h0.symm.trans g0
  cases h1.symm.trans g1
  cases h2.symm.trans g2
  obtain ⟨b, hb', rfl⟩ := dataLines_of_assembled h2 g3
  obtain ⟨lines, h5, rfl⟩ := hf
  rw [hbytes, dataLines_unique hb' ⟨records, lines, hb, h5, rfl⟩]

/-! ### Parts of lists -/

theorem each_perm {α β : Type} {R : α → β → Prop} {ys ys' : List β} (hp : ys'.Perm ys) :
    ∀ {xs : List α}, Each R xs ys → ∃ xs', xs'.Perm xs ∧ Each R xs' ys' := by
  induction hp with
  | nil => intro xs h; exact ⟨xs, .refl _, h⟩
  | cons y _ ih =>
    intro xs h
    cases h with
    | cons h0 h =>
      obtain ⟨xs', h1, h2⟩ := ih h
      exact ⟨_, h1.cons _, .cons h0 h2⟩
  | swap y z l =>
    intro xs h
    cases h with
    | cons h0 h =>
      cases h with
      | cons h1 h => exact ⟨_, .swap _ _ _, .cons h1 (.cons h0 h)⟩
  | trans _ _ ih1 ih2 =>
    intro xs h
    obtain ⟨xs1, h1, h2⟩ := ih2 h
    obtain ⟨xs2, h3, h4⟩ := ih1 h2
    exact ⟨xs2, h3.trans h1, h4⟩

theorem each_sublist {α β : Type} {R : α → β → Prop} {ys ys' : List β} (hp : ys'.Sublist ys) :
    ∀ {xs : List α}, Each R xs ys → ∃ xs', xs'.Sublist xs ∧ Each R xs' ys' := by
  induction hp with
  | slnil => intro xs h; exact ⟨xs, List.Sublist.refl _, h⟩
  | cons y _ ih =>
    intro xs h
    cases h with
    | cons h0 h =>
      obtain ⟨xs', h1, h2⟩ := ih h
      exact ⟨xs', h1.cons _, h2⟩
  | cons_cons y _ ih =>
    intro xs h
    cases h with
    | cons h0 h =>
      obtain ⟨xs', h1, h2⟩ := ih h
      exact ⟨_, h1.cons_cons _, .cons h0 h2⟩

theorem recordable_small {records : List (Nat × List U8)} (h : ∀ b ∈ records, Recordable b) :
    ∀ b ∈ records, b.1 < 65536 ∧ b.2.length ≤ 255 := by
  intro b hb
  have := h b hb
  exact ⟨by have := this.2.2; omega, by have := this.2.1; omega⟩

theorem loaded_of_hexOf {hex : Str} {bytes : List (Nat × U8)} (h : HexOf hex bytes) :
    loadedAddresses hex = bytes.map Prod.fst := by
  unfold loadedAddresses
  rw [h]
  simp [Function.comp_def]

theorem fileOf_append {records records' : List (Nat × List U8)} {body body' : Str} (h : FileOf records (body ++ lastLine))
    (h' : FileOf records' (body' ++ lastLine)) : FileOf (records ++ records') (body ++ body' ++ lastLine) := by
  obtain ⟨lines, h1, h2⟩ := h
  obtain ⟨lines', h3, h4⟩ := h'
  cases List.append_cancel_right h2
  cases List.append_cancel_right h4
  exact ⟨lines ++ lines', each_join h1 h3, by rw [List.flatMap_append]⟩

theorem fileOf_unique {records records' : List (Nat × List U8)} {hex : Str} (h : ∀ b ∈ records, Recordable b)
    (h' : ∀ b ∈ records', Recordable b) (hf : FileOf records hex) (hf' : FileOf records' hex) : records = records' := by
  obtain ⟨lines, h1, rfl⟩ := hf
  obtain ⟨lines', h2, h3⟩ := hf'
  cases file_lines (lines_clean h1 (recordable_small h)) (lines_clean h2 (recordable_small h'))
    (by rw [List.flatMap_append, List.flatMap_append]; exact h3)
  exact blocks_of_lines h1 h2 (recordable_small h) (recordable_small h')

theorem written_lines [Target] {text : Str} {lines : List Str} (hl : ∀ l ∈ lines, '\n' ∉ l)
    (h : Builds text (lines.flatMap (· ++ ['\n']) ++ lastLine)) : ∃ records, (∀ b ∈ records, Recordable b) ∧
      NoCollision (recordBytes records) ∧ Each BlockLine records lines := by
  obtain ⟨records, h1, h2, ⟨lines', h3, h4⟩, _⟩ := written_of_builds h
  have hc := lines_clean h3 (recordable_small h1)
  cases file_lines hl hc (by rw [List.flatMap_append, List.flatMap_append]; exact h4)
  exact ⟨records, h1, h2, h3⟩

theorem recordBytes_nodup {records records' l : List (Nat × List U8)} (hp : l.Perm records) (hs : records'.Sublist l)
    (h : NoCollision (recordBytes records)) : NoCollision (recordBytes records') := by
  have e : ((recordBytes l).map Prod.fst).Nodup := ((hp.flatMap_right _).map _).nodup_iff.2 h
  exact e.sublist ((hs.flatMap _).map _)

end C8S
