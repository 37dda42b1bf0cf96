import Verif.Spec.Blocks
import Verif.Spec.Respell
import Verif.Proofs.IHex
import Verif.Proofs.Orgs
import Verif.Props.Layout

/- Lemmas on the blocks of an object file (C87). -/

namespace C8S

open Spec

/-- The line is the data record of the block. -/
def BlockLine (b : Nat × List U8) (line : Str) : Prop := IsDataLine b.1 b.2 line

theorem range_blocks {a : Nat} {data : List U8} {lines : List Str} (h : RangeLines a data lines) :
    ∃ bs, RangeBlocks a data bs ∧ Each BlockLine bs lines := by
  induction h with
  | empty => exact ⟨[], .empty, .nil⟩
  | last h1 h2 hl => exact ⟨_, .last h1 h2, .cons hl .nil⟩
  | more h1 h2 hl _ ih =>
    obtain ⟨bs, h3, h4⟩ := ih
    exact ⟨_, .more h1 h2 h3, .cons hl h4⟩

theorem each_join {α β : Type} {R : α → β → Prop} {xs xs' : List α} {ys ys' : List β} (h : Each R xs ys)
    (h' : Each R xs' ys') : Each R (xs ++ xs') (ys ++ ys') := by
  induction h with
  | nil => exact h'
  | cons h0 _ ih => exact .cons h0 ih

theorem all_blocks {ranges : List DataRange} {lines : List Str} (h : AllLines ranges lines) :
    ∃ bs, AllBlocks ranges bs ∧ Each BlockLine bs lines := by
  induction h with
  | nil => exact ⟨[], .nil, .nil⟩
  | cons hr _ ih =>
    obtain ⟨bs, h1, h2⟩ := range_blocks hr
    obtain ⟨bs', h3, h4⟩ := ih
    exact ⟨_, .cons h1 h3, each_join h2 h4⟩

theorem rangeBlocks_unique {a : Nat} {data : List U8} {bs bs' : List (Nat × List U8)} (h : RangeBlocks a data bs)
    (h' : RangeBlocks a data bs') : bs = bs' := by
  induction h generalizing bs' with
  | empty =>
    generalize hd : ([] : List U8) = d at h'
    cases h' with
    | empty => rfl
    | last h1 _ => subst hd; simp at h1
    | more h1 h2 _ =>
      obtain ⟨rfl, rfl⟩ := List.append_eq_nil_iff.1 hd.symm
      exact (h2 rfl).elim
  | @last a bytes h1 h2 =>
    generalize hd : bytes = d at h'
    cases h' with
    | empty => subst hd; simp at h1
    | last _ _ => rfl
    | @more _ b r _ h3 h4 _ =>
      have := congrArg List.length hd
      rw [List.length_append] at this
      have := List.length_pos_iff.2 h4
      omega
  | @more a bytes rest bs h1 h2 _ ih =>
    generalize hd : bytes ++ rest = d at h'
    cases h' with
    | empty =>
      obtain ⟨rfl, rfl⟩ := List.append_eq_nil_iff.1 hd
      exact (h2 rfl).elim
    | last _ h3 =>
      have := congrArg List.length hd
      rw [List.length_append] at this
      have := List.length_pos_iff.2 h2
      omega
    | @more _ b r _ h3 h4 h5 =>
      obtain ⟨rfl, rfl⟩ := List.append_inj hd (by omega)
      rw [ih h5]

theorem allBlocks_unique {ranges : List DataRange} {bs bs' : List (Nat × List U8)} (h : AllBlocks ranges bs)
    (h' : AllBlocks ranges bs') : bs = bs' := by
  induction h generalizing bs' with
  | nil => cases h'; rfl
  | cons hr _ ih =>
    cases h' with
    | cons hr' h' => rw [rangeBlocks_unique hr hr', ih h']

theorem rangeBlocks_exists (n : Nat) : ∀ (a : Nat) (data : List U8), data.length ≤ n → ∃ bs, RangeBlocks a data bs := by
  induction n with
  | zero =>
    intro a data h
    cases List.length_eq_zero_iff.1 (Nat.le_zero.1 h)
    exact ⟨[], .empty⟩
  | succ n ih =>
    intro a data h
    by_cases h0 : data = []
    · exact ⟨[], h0 ▸ .empty⟩
    have hp := List.length_pos_iff.2 h0
    by_cases h1 : data.length ≤ 16
    · exact ⟨_, .last hp h1⟩
    · obtain ⟨bs, hb⟩ := ih (a + 16) (data.drop 16) (by rw [List.length_drop]; omega)
      have := RangeBlocks.more (a := a) (bytes := data.take 16) (rest := data.drop 16)
        (by rw [List.length_take]; omega) (by rw [Ne, List.drop_eq_nil_iff]; omega) hb
      rw [List.take_append_drop] at this
      exact ⟨_, this⟩

theorem allBlocks_exists (ranges : List DataRange) : ∃ bs, AllBlocks ranges bs := by
  induction ranges with
  | nil => exact ⟨[], .nil⟩
  | cons r rs ih =>
    obtain ⟨bs, h1⟩ := rangeBlocks_exists _ r.startAddress.toNat r.data (Nat.le_refl _)
    obtain ⟨bs', h2⟩ := ih
    exact ⟨_, .cons h1 h2⟩

theorem rangeBlocks_bound {a : Nat} {data : List U8} {bs : List (Nat × List U8)} (h : RangeBlocks a data bs) :
    ∀ b ∈ bs, b.1 ≤ a + data.length ∧ b.2.length ≤ 16 := by
  induction h with
  | empty => intro b hb; cases hb
  | last h1 h2 =>
    intro b hb
    cases List.mem_singleton.1 hb
    exact ⟨Nat.le_add_right _ _, h2⟩
  | more h1 h2 _ ih =>
    intro b hb
    rcases List.mem_cons.1 hb with rfl | hb
    · exact ⟨Nat.le_add_right _ _, by simp only; omega⟩
    · have := ih b hb
      rw [List.length_append]
      exact ⟨by omega, this.2⟩

theorem allBlocks_bound {ranges : List DataRange} {bs : List (Nat × List U8)} (h : AllBlocks ranges bs)
    (hr : ∀ r ∈ ranges, rangeEnd r ≤ memorySize) : ∀ b ∈ bs, b.1 < 65536 ∧ b.2.length ≤ 255 := by
  induction h with
  | nil => intro b hb; cases hb
  | cons h0 _ ih =>
    intro b hb
    rcases List.mem_append.1 hb with hb | hb
    · have h1 := rangeBlocks_bound h0 b hb
      have h2 := hr _ List.mem_cons_self
      simp only [rangeEnd, memorySize] at h2
      omega
    · exact ih (fun r h => hr r (List.mem_cons_of_mem _ h)) b hb

theorem dataLine_unique {a : Nat} {bytes : List U8} {l l' : Str} (h : IsDataLine a bytes l) (h' : IsDataLine a bytes l') :
    l = l' := by
  obtain ⟨c, hc, hs, rfl⟩ := h
  obtain ⟨c', hc', hs', rfl⟩ := h'
  have : c = c' := by omega
  rw [this]

theorem lines_unique {bs : List (Nat × List U8)} {ls ls' : List Str} (h : Each BlockLine bs ls)
    (h' : Each BlockLine bs ls') : ls = ls' := by
  induction h generalizing ls' with
  | nil => cases h'; rfl
  | cons h0 _ ih =>
    cases h' with
    | cons h0' h' => rw [dataLine_unique h0 h0', ih h']

theorem toNat_map_inj {x y : List U8} (h : x.map BitVec.toNat = y.map BitVec.toNat) : x = y :=
  (List.map_inj_right (fun {_ _} h => BitVec.eq_of_toNat_eq h)).1 h

theorem blocks_of_lines {bs bs' : List (Nat × List U8)} {ls : List Str} (h : Each BlockLine bs ls)
    (h' : Each BlockLine bs' ls) (hb : ∀ b ∈ bs, b.1 < 65536 ∧ b.2.length ≤ 255)
    (hb' : ∀ b ∈ bs', b.1 < 65536 ∧ b.2.length ≤ 255) : bs = bs' := by
  induction h generalizing bs' with
  | nil => cases h'; rfl
  | @cons b l bs ls h0 _ ih =>
    cases h' with
    | @cons b' _ bs' _ h0' h' =>
      have e1 := readRecord_data (hb b List.mem_cons_self).1 (hb b List.mem_cons_self).2 h0
      have e2 := readRecord_data (hb' b' List.mem_cons_self).1 (hb' b' List.mem_cons_self).2 h0'
      rw [e1] at e2
      simp only [Option.some.injEq, HexRecord.data.injEq] at e2
      have e : b = b' := Prod.ext e2.1 (toNat_map_inj e2.2)
      rw [e, ih h' (fun c hc => hb c (List.mem_cons_of_mem _ hc)) (fun c hc => hb' c (List.mem_cons_of_mem _ hc))]

theorem lines_clean {bs : List (Nat × List U8)} {ls : List Str} (h : Each BlockLine bs ls)
    (hb : ∀ b ∈ bs, b.1 < 65536 ∧ b.2.length ≤ 255) : ∀ l ∈ ls, '\n' ∉ l := by
  induction h with
  | nil => intro l hl; cases hl
  | @cons b _ _ _ h0 _ ih =>
    intro l hl
    rcases List.mem_cons.1 hl with rfl | hl
    · exact newline_dataLine (hb b List.mem_cons_self).1 (hb b List.mem_cons_self).2 h0
    · exact ih (fun c hc => hb c (List.mem_cons_of_mem _ hc)) l hl

theorem file_lines {ls ls' : List Str} (h : ∀ l ∈ ls, '\n' ∉ l) (h' : ∀ l ∈ ls', '\n' ∉ l)
    (e : (ls ++ [":00000001FF".toList]).flatMap (· ++ ['\n']) = (ls' ++ [":00000001FF".toList]).flatMap (· ++ ['\n'])) :
    ls = ls' := by
  have key : ∀ {ls : List Str}, (∀ l ∈ ls, '\n' ∉ l) →
      linesOf [] ((ls ++ [":00000001FF".toList]).flatMap (· ++ ['\n'])) = some (ls ++ [":00000001FF".toList]) := by
    intro ls h
    refine linesOf_lines _ fun l hl => ?_
    rcases List.mem_append.1 hl with hl | hl
    · exact h l hl
    · rw [List.mem_singleton.1 hl]; decide
  have := (key h).symm.trans ((congrArg (linesOf []) e).trans (key h'))
  exact List.append_cancel_right (Option.some.inj this)

/-- The text of ranges without overlaps, with their blocks. -/
theorem ihex_blocks {ranges : List DataRange} (h : ∀ r ∈ ranges, rangeEnd r ≤ memorySize) {text : Str}
    (ht : ihexRepresentationOfDataRanges ranges = .ret text) : ∃ bs lines, AllBlocks ranges bs ∧ Each BlockLine bs lines ∧
      (∀ b ∈ bs, b.1 < 65536 ∧ b.2.length ≤ 255) ∧ text = (lines ++ [":00000001FF".toList]).flatMap (· ++ ['\n']) := by
  have hov : findOverlappingRanges ranges = [] := by
    rw [← List.length_eq_zero_iff]
    refine Classical.byContradiction fun hne => ?_
    simp [ihexRepresentationOfDataRanges, rustAssert, hne] at ht
  obtain ⟨lines, h1, h2, _⟩ := ihex_text ranges h hov
  obtain ⟨bs, h3, h4⟩ := all_blocks h1
  rw [ht] at h2
  cases h2
  exact ⟨bs, lines, h3, h4, allBlocks_bound h3 h, rfl⟩

/-! ### Cutting a range in two -/

theorem rangeBlocks_cut (n : Nat) : ∀ (a : Nat) (d e : List U8) (bs bs' : List (Nat × List U8)), d.length = 16 * n →
    RangeBlocks a d bs → RangeBlocks (a + d.length) e bs' → RangeBlocks a (d ++ e) (bs ++ bs') := by
  induction n with
  | zero =>
    intro a d e bs bs' hd h h'
    cases List.length_eq_zero_iff.1 hd
    cases rangeBlocks_unique h .empty
    exact h'
  | succ n ih =>
    intro a d e bs bs' hd h h'
    by_cases he : e = []
    · subst he
      cases rangeBlocks_unique h' .empty
      rwa [List.append_nil, List.append_nil]
    cases h with
    | empty => simp at hd
    | last h1 h2 =>
      have e1 : d.length = 16 := by omega
      rw [e1] at h'
      exact .more e1 he h'
    | @more _ bytes rest bs h1 h2 h3 =>
      rw [List.length_append] at hd h'
      have := ih (a + 16) rest e bs bs' (by omega) h3
        (by rwa [show a + 16 + rest.length = a + (bytes.length + rest.length) by omega])
      rw [List.append_assoc, List.cons_append]
      exact .more h1 (by simp [he]) this

theorem allBlocks_append {A B : List DataRange} {bs : List (Nat × List U8)} :
    AllBlocks (A ++ B) bs ↔ ∃ x y, AllBlocks A x ∧ AllBlocks B y ∧ bs = x ++ y := by
  induction A generalizing bs with
  | nil =>
    constructor
    · intro h; exact ⟨[], bs, .nil, h, rfl⟩
    · rintro ⟨x, y, h1, h2, rfl⟩; cases h1; exact h2
  | cons r A ih =>
    constructor
    · intro h
      cases h with
      | cons hr h =>
        obtain ⟨x, y, h1, h2, rfl⟩ := ih.1 h
        exact ⟨_, y, .cons hr h1, h2, by rw [List.append_assoc]⟩
    · rintro ⟨x, y, h1, h2, rfl⟩
      cases h1 with
      | cons hr h1 =>
        rw [List.append_assoc]
        exact .cons hr (ih.2 ⟨_, y, h1, h2, rfl⟩)

theorem allBlocks_cut {A B : List DataRange} {a b : U12} {d e : List U8} (hd : 16 ∣ d.length)
    (hb : b.toNat = a.toNat + d.length) {bs : List (Nat × List U8)} (h : AllBlocks (A ++ ⟨a, d⟩ :: ⟨b, e⟩ :: B) bs) :
    AllBlocks (A ++ ⟨a, d ++ e⟩ :: B) bs := by
  obtain ⟨x, y, h1, h2, rfl⟩ := allBlocks_append.1 h
  cases h2 with
  | cons hr h2 =>
    cases h2 with
    | cons hr' h2 =>
      obtain ⟨n, hn⟩ := hd
      simp only [hb] at hr'
      have := rangeBlocks_cut n _ _ _ _ _ hn hr hr'
      refine allBlocks_append.2 ⟨x, _, h1, .cons this h2, by simp⟩

theorem allBlocks_nonEmpty {X : List DataRange} {bs : List (Nat × List U8)} (h : AllBlocks X bs) :
    AllBlocks (nonEmpty X) bs := by
  induction h with
  | nil => exact .nil
  | @cons r rs bs bs' hr _ ih =>
    rw [nonEmpty_cons]
    by_cases e : r.data = []
    · rw [e] at hr
      cases rangeBlocks_unique hr .empty
      simpa [nonEmpty, e] using ih
    · rw [show nonEmpty [r] = [r] by simp [nonEmpty, e]]
      exact .cons hr ih

/-! ### An `.org` to the address reached -/

theorem sections_org {L : LabelMap} {A B : List Node} {l : Loc} {s : Str} {xs : List Literal} {start v : U12}
    {s1 s2 : List DataRange} (hv : DirectiveMeans s xs (.org v)) (h1 : Sections L start A s1) (h2 : Sections L v B s2) :
    Sections L start (A ++ .directive l s xs :: B) (s1 ++ s2) := by
  induction h1 with
  | nil => exact .org hv h2
  | org hd _ ih => exact .org hd ih
  | emit he _ ih => exact .emit he ih

theorem sections_org_split {L : LabelMap} {A B : List Node} {l : Loc} {s : Str} {xs : List Literal} {start v : U12}
    {secs : List DataRange} (hv : DirectiveMeans s xs (.org v)) (h : Sections L start (A ++ .directive l s xs :: B) secs) :
    ∃ s1 s2, Sections L start A s1 ∧ Sections L v B s2 ∧ secs = s1 ++ s2 := by
  induction A generalizing start secs with
  | nil =>
    obtain ⟨r, rfl, hr⟩ := org_sections hv h
    exact ⟨_, r, .nil, hr, rfl⟩
  | cons n A ih =>
    cases h with
    | org hd h =>
      obtain ⟨s1, s2, h1, h2, rfl⟩ := ih h
      exact ⟨_, s2, .org hd h1, h2, rfl⟩
    | emit he h =>
      obtain ⟨s1, s2, h1, h2, e⟩ := ih h
      obtain ⟨d, r, rfl⟩ := sections_head h1
      simp only [List.cons_append, List.cons.injEq, DataRange.mk.injEq, true_and] at e
      obtain ⟨rfl, rfl⟩ := e
      exact ⟨_, s2, .emit he h1, h2, rfl⟩

theorem sections_restart {L : LabelMap} {B : List Node} {start start' : U12} {d : List U8} {rest : List DataRange}
    (h : Sections L start B (⟨start, d⟩ :: rest)) : Sections L start' B (⟨start', d⟩ :: rest) := by
  induction B generalizing d with
  | nil => cases h; exact .nil
  | cons n B ih =>
    cases h with
    | org hd h => exact .org hd h
    | emit he h => exact .emit he (ih h)

theorem sections_join {L : LabelMap} {A B : List Node} {start : U12} {secs : List DataRange}
    (h : Sections L start (A ++ B) secs) : ∃ init w d e rest, Sections L start A (init ++ [⟨w, d⟩]) ∧
      Sections L w B (⟨w, e⟩ :: rest) ∧ secs = init ++ ⟨w, d ++ e⟩ :: rest := by
  induction A generalizing start secs with
  | nil =>
    obtain ⟨d, r, rfl⟩ := sections_head h
    exact ⟨[], start, [], d, r, .nil, h, rfl⟩
  | cons n A ih =>
    cases h with
    | org hd h =>
      obtain ⟨init, w, d, e, rest, h1, h2, rfl⟩ := ih h
      exact ⟨_ :: init, w, d, e, rest, .org hd h1, h2, rfl⟩
    | emit he h =>
      obtain ⟨init, w, d, e, rest, h1, h2, e'⟩ := ih h
      cases init with
      | nil =>
        obtain ⟨x, y, hx⟩ := sections_head h1
        cases hx
        cases e'
        exact ⟨[], start, _, e, _, .emit he h1, h2, by rw [List.append_assoc]; rfl⟩
      | cons r init =>
        cases e'
        exact ⟨_ :: init, w, d, e, _, .emit he h1, h2, rfl⟩

theorem sections_means {L : LabelMap} {ns : List Node} {start : U12} {secs : List DataRange}
    (h : Sections L start ns secs) : ∀ l s xs, .directive l s xs ∈ ns → ∃ d, DirectiveMeans s xs d := by
  induction h with
  | nil => intro l s xs hm; cases hm
  | org hd _ ih =>
    intro l s xs hm
    rcases List.mem_cons.1 hm with e | hm
    · cases e; exact ⟨_, hd⟩
    · exact ih l s xs hm
  | emit he _ ih =>
    intro l s xs hm
    rcases List.mem_cons.1 hm with e | hm
    · cases e
      cases he with
      | db hd => exact ⟨_, hd⟩
      | equ hd => exact ⟨_, hd⟩
    · exact ih l s xs hm

theorem noOrg_reached {L : LabelMap} {Q : List Node} {start : U12} {d : List U8} {secs : List DataRange}
    (hs : Sections L start Q secs) (e : secs = [⟨start, d⟩]) (a : Nat) : Reaches Q a (a + d.length) := by
  induction hs generalizing a d with
  | nil => cases e; exact .nil
  | org hd hs _ =>
    obtain ⟨_, _, rfl⟩ := sections_head hs
    cases e
  | emit he _ ih =>
    cases e
    rw [List.length_append, ← Nat.add_assoc]
    exact .cons (emits_moves he a) (ih rfl _)

theorem sectionStart_last {L : LabelMap} {A : List Node} {u w : U12} {d : List U8} {init : List DataRange}
    (hu : SectionStart A u) (h : Sections L 0 A (init ++ [⟨w, d⟩])) : w = u ∧ Reaches A 0 (u.toNat + d.length) := by
  cases hu with
  | first hn =>
    obtain ⟨data, e, _⟩ := noOrg_sections hn h
    have e' := congrArg List.getLast? e
    simp only [List.getLast?_concat, List.getLast?_singleton, Option.some.injEq, DataRange.mk.injEq] at e'
    obtain ⟨rfl, rfl⟩ := e'
    exact ⟨rfl, noOrg_reached h e 0⟩
  | @org P Q l s xs _ hd hn =>
    obtain ⟨s1, s2, h1, h2, e⟩ := sections_org_split hd h
    obtain ⟨data, rfl, _⟩ := noOrg_sections hn h2
    have e' := congrArg List.getLast? e
    simp only [List.getLast?_concat, Option.some.injEq, DataRange.mk.injEq] at e'
    obtain ⟨rfl, rfl⟩ := e'
    have hdir : ∀ l s xs, .directive l s xs ∈ P → ∃ d, DirectiveMeans s xs d :=
      fun l s xs hm => sections_means h l s xs (List.mem_append_left _ hm)
    obtain ⟨b, hb⟩ := reaches_exists hdir 0
    exact ⟨rfl, reaches_append.2 ⟨b, hb, .cons (.org hd) (noOrg_reached h2 rfl _)⟩⟩

theorem sameOrgs_reached {A B : List Node} {l : Loc} {s : Str} {xs : List Literal} {v : U12}
    (hv : DirectiveMeans s xs (.org v)) (hr : Reaches A 0 v.toNat) (hB : ∀ c, ¬ ConstantNext B c) :
    SameOrgs A [.directive l s xs] [] B := by
  refine ⟨orgs_single hv, orgs_nil, hB, .inr fun c => ?_⟩
  rw [List.append_nil, reaches_append]
  constructor
  · rintro ⟨b, _, h⟩
    rw [org_moves hv] at h
    exact h ▸ hr
  · intro h
    exact ⟨_, h, (org_moves hv).2 (reaches_unique h hr)⟩

theorem org_added {A B : List Node} {l : Loc} {s : Str} {xs : List Literal} {u v : U12}
    (hv : DirectiveMeans s xs (.org v)) (hu : SectionStart A u) (hr : Reaches A 0 v.toNat)
    (hk : 16 ∣ v.toNat - u.toNat) (hB : ∀ c, ¬ ConstantNext B c) {r : List DataRange}
    (h : assemble (A ++ B) = .ret (.ok r)) : ∃ r', assemble (A ++ .directive l s xs :: B) = .ret (.ok r') ∧
      Spec.image r' = Spec.image r ∧ ∃ bs, AllBlocks r bs ∧ AllBlocks r' bs := by
  have hso := (sameOrgs_reached (l := l) hv hr hB).symm
  obtain ⟨r', hr', him⟩ := hso.image h
  refine ⟨r', hr', him, ?_⟩
  obtain ⟨L, secs, hc, hl, hs, rfl⟩ := assemble_ok_iff.1 h
  obtain ⟨init, w, d, e, rest, h1, h2, rfl⟩ := sections_join hs
  obtain ⟨rfl, hw⟩ := sectionStart_last hu h1
  have hlen := reaches_unique hw hr
  have h3 := sections_org (l := l) hv h1 (sections_restart (start' := v) h2)
  have h4 := assemble_ok_iff.2 ⟨L, _, hso.clean hc, hso.labelsOf.1 hl, h3, rfl⟩
  cases hr'.symm.trans h4
  rw [List.append_assoc]
  obtain ⟨bs, hb⟩ := allBlocks_exists (init ++ ([⟨w, d⟩] ++ ⟨v, e⟩ :: rest))
  refine ⟨bs, allBlocks_nonEmpty (allBlocks_cut ?_ hlen.symm hb), allBlocks_nonEmpty hb⟩
  rwa [show d.length = v.toNat - w.toNat by omega]

/-- Ranges of two programs with the same image and the same blocks have the same object file. -/
theorem same_file {ns ms : List Node} {r r' : List DataRange} (h : assemble ns = .ret (.ok r))
    (h' : assemble ms = .ret (.ok r')) (hi : Spec.image r' = Spec.image r) {bs : List (Nat × List U8)}
    (hb : AllBlocks r bs) (hb' : AllBlocks r' bs) {text : Str} (ht : ihexRepresentationOfDataRanges r = .ret text) :
    ihexRepresentationOfDataRanges r' = .ret text := by
  have hm : ∀ {ns r}, assemble ns = .ret (.ok r) → ∀ x ∈ r, rangeEnd x ≤ memorySize := by
    intro ns r h x hx
    have := (ranges_bound h x hx).2
    simp only [memorySize]
    omega
  obtain ⟨b1, l1, h1, h2, _, rfl⟩ := ihex_blocks (hm h) ht
  cases allBlocks_unique h1 hb
  have hov : findOverlappingRanges r = [] := by
    rw [← List.length_eq_zero_iff]
    refine Classical.byContradiction fun hne => ?_
    simp [ihexRepresentationOfDataRanges, rustAssert, hne] at ht
  have hov' : findOverlappingRanges r' = [] := by
    rw [C41_overlap _ _ h', hi, ← C41_overlap _ _ h]
    exact hov
  obtain ⟨lines, h3, h4, _⟩ := ihex_text r' (hm h') hov'
  obtain ⟨b2, h5, h6⟩ := all_blocks h3
  cases allBlocks_unique h5 hb'
  rw [lines_unique h2 h6]
  exact h4

end C8S
