import Verif.Proofs.Blocks

/- Properties on when two object files are the same: C87. -/

namespace C8S

open Spec LayoutExample

theorem built_end {ranges : List DataRange} (h : ∀ r ∈ ranges, Built r) : ∀ r ∈ ranges, rangeEnd r ≤ memorySize :=
  fun r hr => (C38_built_iff_inMemory r).1 (h r hr)

/-- C87: the blocks of ranges are determined by the ranges. -/
theorem C87_blocks (ranges : List DataRange) : ∃ bs, AllBlocks ranges bs ∧ ∀ bs', AllBlocks ranges bs' → bs' = bs := by
  obtain ⟨bs, h⟩ := allBlocks_exists ranges
  exact ⟨bs, h, fun bs' h' => allBlocks_unique h' h⟩

example : AllBlocks [⟨0x200, List.replicate 17 7⟩, ⟨0x300, [4]⟩] [(0x200, List.replicate 16 7), (0x210, [7]), (0x300, [4])] :=
  .cons (r := ⟨0x200, List.replicate 17 7⟩) (bs := [(0x200, List.replicate 16 7), (0x210, [7])]) (.more (a := 0x200) (bytes := List.replicate 16 7) (rest := [7]) (by decide) (by decide)
    (.last (by decide) (by decide)))
    (.cons (r := ⟨0x300, [4]⟩) (.last (by decide) (by decide)) .nil)

/-- C87: two object files are the same, byte for byte, exactly if the blocks of the ranges are. -/
theorem C87_same (ranges ranges' : List DataRange) (h : ∀ r ∈ ranges, Built r) (h' : ∀ r ∈ ranges', Built r)
    (text text' : Str) (ht : ihexRepresentationOfDataRanges ranges = .ret text)
    (ht' : ihexRepresentationOfDataRanges ranges' = .ret text') (bs bs' : List (Nat × List U8)) (hb : AllBlocks ranges bs)
    (hb' : AllBlocks ranges' bs') : text = text' ↔ bs = bs' := by
  obtain ⟨b1, l1, h1, h2, h3, rfl⟩ := ihex_blocks (built_end h) ht
  obtain ⟨b2, l2, h4, h5, h6, rfl⟩ := ihex_blocks (built_end h') ht'
  cases allBlocks_unique h1 hb
  cases allBlocks_unique h4 hb'
  constructor
  · intro e
    cases file_lines (lines_clean h2 h3) (lines_clean h5 h6) e
    exact blocks_of_lines h2 h5 h3 h6
  · rintro rfl
    rw [lines_unique h2 h5]

/-- The same bytes in one range and in two have the same image, but other blocks. -/
example : image [⟨0x200, [1, 2]⟩] = image [⟨0x200, [1]⟩, ⟨0x201, [2]⟩] ∧
    AllBlocks [⟨0x200, [1, 2]⟩] [(0x200, [1, 2])] ∧ AllBlocks [⟨0x200, [1]⟩, ⟨0x201, [2]⟩] [(0x200, [1]), (0x201, [2])] ∧
    ihexRepresentationOfDataRanges [⟨0x200, [1, 2]⟩] = .ret ":020200000102F9\n:00000001FF\n".toList ∧
    ihexRepresentationOfDataRanges [⟨0x200, [1]⟩, ⟨0x201, [2]⟩] =
      .ret ":0102000001FC\n:0102010002FA\n:00000001FF\n".toList :=
  ⟨rfl, .cons (.last (by decide) (by decide)) .nil,
    .cons (.last (by decide) (by decide)) (.cons (.last (by decide) (by decide)) .nil), by decide +kernel, by decide +kernel⟩

/-- C87: a range cut in two behind a multiple of 16 bytes gives the same object file. -/
theorem C87_cut (A B : List DataRange) (a b : U12) (d e : List U8) (hd : 16 ∣ d.length)
    (hb : b.toNat = a.toNat + d.length) (h : ∀ r ∈ A ++ ⟨a, d⟩ :: ⟨b, e⟩ :: B, Built r)
    (h' : ∀ r ∈ A ++ ⟨a, d ++ e⟩ :: B, Built r) (text text' : Str)
    (ht : ihexRepresentationOfDataRanges (A ++ ⟨a, d⟩ :: ⟨b, e⟩ :: B) = .ret text)
    (ht' : ihexRepresentationOfDataRanges (A ++ ⟨a, d ++ e⟩ :: B) = .ret text') : text = text' := by
  obtain ⟨bs, hbs⟩ := allBlocks_exists (A ++ ⟨a, d⟩ :: ⟨b, e⟩ :: B)
  exact (C87_same _ _ h h' text text' ht ht' bs bs hbs (allBlocks_cut hd hb hbs)).2 rfl

example : ihexRepresentationOfDataRanges [⟨0x200, List.replicate 16 7⟩, ⟨0x210, [1]⟩] =
      .ret ":10020000070707070707070707070707070707077E\n:0102100001EC\n:00000001FF\n".toList ∧
    ihexRepresentationOfDataRanges [⟨0x200, List.replicate 16 7 ++ [1]⟩] =
      .ret ":10020000070707070707070707070707070707077E\n:0102100001EC\n:00000001FF\n".toList :=
  ⟨by rfl, by rfl⟩

/-- C87: an `.org` to the address reached does not change the object file, if its distance from the start of the section
it ends is a multiple of 16. -/
theorem C87_org (A B : List Node) (l : Loc) (s : Str) (xs : List Literal) (u v : U12)
    (hv : DirectiveMeans s xs (.org v)) (hu : SectionStart A u) (hr : Reaches A 0 v.toNat)
    (hk : 16 ∣ v.toNat - u.toNat) (hB : ∀ c, ¬ ConstantNext B c) (text : Str) :
    (∃ r, assemble (A ++ .directive l s xs :: B) = .ret (.ok r) ∧ ihexRepresentationOfDataRanges r = .ret text) ↔
    (∃ r, assemble (A ++ B) = .ret (.ok r) ∧ ihexRepresentationOfDataRanges r = .ret text) := by
  constructor
  · rintro ⟨r', h', ht⟩
    obtain ⟨r, h, _⟩ := (sameOrgs_reached (l := l) hv hr hB).image h'
    obtain ⟨r'', h'', hi, bs, hb, hb'⟩ := org_added (l := l) hv hu hr hk hB h
    cases h'.symm.trans h''
    exact ⟨r, h, same_file h' h hi.symm hb' hb ht⟩
  · rintro ⟨r, h, ht⟩
    obtain ⟨r', h', hi, bs, hb, hb'⟩ := org_added (l := l) hv hu hr hk hB h
    exact ⟨r', h', same_file h h' hi hb hb' ht⟩

namespace BlocksExample

/-- `.db` with 16 sevens -/
def db16 : Node := .directive loc "db".toList (List.replicate 16 (.numeric 7))

/-- `.org $210` -/
def org210 : Node := .directive loc "org".toList [.numeric 0x210]

theorem db16_means : DirectiveMeans "db".toList (List.replicate 16 (.numeric 7)) (.db (List.replicate 16 7)) := means_iff.1 rfl

theorem org210_means : DirectiveMeans "org".toList [.numeric 0x210] (.org 0x210) := means_iff.1 rfl

end BlocksExample

open BlocksExample

/-- `.org $200`, 16 bytes, then `.org $210` and a byte. -/
example : SectionStart [org200, db16] 0x200 ∧ Reaches [org200, db16] 0 0x210 ∧
    assemble [org200, db16, org210, db7] = .ret (.ok [⟨0x200, List.replicate 16 7⟩, ⟨0x210, [7]⟩]) ∧
    assemble [org200, db16, db7] = .ret (.ok [⟨0x200, List.replicate 17 7⟩]) :=
  ⟨.org (P := []) org200_means (by
      intro l s xs hm
      rw [List.mem_singleton] at hm
      cases hm
      exact fun h => absurd h (by decide)),
    .cons (.org org200_means) (.cons (.db db16_means) .nil), by rfl, by rfl⟩

/-- C87: at other distances it can: the bytes and their addresses stay the same, but the records do not. -/
theorem C87_org_needs : ∃ (A B : List Node) (l : Loc) (s : Str) (xs : List Literal) (v : U12) (r r' : List DataRange)
    (text text' : Str), DirectiveMeans s xs (.org v) ∧ Reaches A 0 v.toNat ∧ (∀ c, ¬ ConstantNext B c) ∧
    assemble (A ++ .directive l s xs :: B) = .ret (.ok r) ∧ assemble (A ++ B) = .ret (.ok r') ∧
    ihexRepresentationOfDataRanges r = .ret text ∧ ihexRepresentationOfDataRanges r' = .ret text' ∧ text ≠ text' := by
  refine ⟨[org200, db7], [db7], loc, "org".toList, [.numeric 0x201], 0x201, [⟨0x200, [7]⟩, ⟨0x201, [7]⟩],
    [⟨0x200, [7, 7]⟩], ":0102000007F6\n:0102010007F5\n:00000001FF\n".toList, ":020200000707EE\n:00000001FF\n".toList,
    means_iff.1 rfl, .cons (.org org200_means) (.cons (.db db7_means) .nil), ?_, by rfl, by rfl, by decide +kernel,
    by decide +kernel, by decide⟩
  intro c hc
  cases hc with
  | intro hd => cases means_unique hd db7_means

end C8S
