import Mathlib.Data.List.Nodup
import Mathlib.Data.List.Pairwise
import Verif.Proofs.Written

/- Lemmas for C98 about lost and repeated lines. -/

namespace C8S

open Spec

theorem each_mem_left {α β : Type} {R : α → β → Prop} {xs : List α} {ys : List β} (h : Each R xs ys) :
    ∀ x ∈ xs, ∃ y ∈ ys, R x y := by
  induction h with
  | nil => intro x hx; cases hx
  | cons h0 _ ih =>
    intro x hx
    rcases List.mem_cons.1 hx with rfl | hx
    · exact ⟨_, List.mem_cons_self, h0⟩
    · obtain ⟨y, hy, hr⟩ := ih x hx
      exact ⟨y, List.mem_cons_of_mem _ hy, hr⟩

theorem each_mem_right {α β : Type} {R : α → β → Prop} {xs : List α} {ys : List β} (h : Each R xs ys) :
    ∀ y ∈ ys, ∃ x ∈ xs, R x y := by
  induction h with
  | nil => intro y hy; cases hy
  | cons h0 _ ih =>
    intro y hy
    rcases List.mem_cons.1 hy with rfl | hy
    · exact ⟨_, List.mem_cons_self, h0⟩
    · obtain ⟨x, hx, hr⟩ := ih y hy
      exact ⟨x, List.mem_cons_of_mem _ hx, hr⟩

theorem each_selected {α β : Type} {R : α → β → Prop} {xs : List α} {ys : List β} (h : Each R xs ys) :
    ∀ ys' : List β, (∀ y ∈ ys', y ∈ ys) → ∃ xs', Each R xs' ys' ∧ ∀ x ∈ xs', x ∈ xs
  | [], _ => ⟨[], .nil, fun x hx => by cases hx⟩
  | y :: ys', hm => by
    obtain ⟨x, hx, hr⟩ := each_mem_right h y (hm y List.mem_cons_self)
    obtain ⟨xs', h1, h2⟩ := each_selected h ys' fun z hz => hm z (List.mem_cons_of_mem _ hz)
    refine ⟨x :: xs', .cons hr h1, fun z hz => ?_⟩
    rcases List.mem_cons.1 hz with rfl | hz
    · exact hx
    · exact h2 z hz

theorem readRecords_lines {records : List (Nat × List U8)} {lines : List Str} (h : Each BlockLine records lines)
    (hb : ∀ b ∈ records, b.1 < 65536 ∧ b.2.length ≤ 255) :
    readRecords (lines ++ [":00000001FF".toList]) = some ((recordBytes records).map fun p => (p.1, p.2.toNat)) := by
  induction h with
  | nil => decide +kernel
  | @cons b l bs ls h0 _ ih =>
    have h1 := hb b List.mem_cons_self
    rw [List.cons_append, readRecords, readRecord_data h1.1 h1.2 h0]
    simp only [ih fun c hc => hb c (List.mem_cons_of_mem _ hc)]
    simp [recordBytes, addressed_placeAt]

theorem readHex_lines {records : List (Nat × List U8)} {lines : List Str} (h : Each BlockLine records lines)
    (hb : ∀ b ∈ records, b.1 < 65536 ∧ b.2.length ≤ 255) :
    readHex (lines.flatMap (· ++ ['\n']) ++ lastLine) = some ((recordBytes records).map fun p => (p.1, p.2.toNat)) := by
  have e : lines.flatMap (· ++ ['\n']) ++ lastLine = (lines ++ [":00000001FF".toList]).flatMap (· ++ ['\n']) := by
    rw [List.flatMap_append]
    rfl
  have hn : ∀ l ∈ lines ++ [":00000001FF".toList], '\n' ∉ l := by
    intro l hm
    rcases List.mem_append.1 hm with hm | hm
    · exact lines_clean h hb l hm
    · rw [List.mem_singleton.1 hm]
      decide
  rw [e]
  unfold readHex
  rw [linesOf_lines _ hn]
  exact readRecords_lines h hb

theorem mem_recordBytes {records : List (Nat × List U8)} {p : Nat × U8} :
    p ∈ recordBytes records ↔ ∃ b ∈ records, p ∈ placeAt b.1 b.2 := by
  simp [recordBytes]

theorem record_of_address {records : List (Nat × List U8)} (h : NoCollision (recordBytes records))
    {b b' : Nat × List U8} (hb : b ∈ records) (hb' : b' ∈ records) {p p' : Nat × U8} (hp : p ∈ placeAt b.1 b.2)
    (hp' : p' ∈ placeAt b'.1 b'.2) (e : p.1 = p'.1) : b = b' := by
  unfold NoCollision recordBytes at h
  rw [List.map_flatMap, List.nodup_flatMap] at h
  refine Classical.byContradiction fun hne => ?_
  have hsym : Std.Symm (Function.onFun List.Disjoint fun a : Nat × List U8 => (placeAt a.1 a.2).map Prod.fst) :=
    ⟨fun _ _ hd x h1 h2 => hd h2 h1⟩
  have := h.2.forall hb hb' hne
  refine this (a := p.1) (List.mem_map_of_mem hp) ?_
  rw [e]
  exact List.mem_map_of_mem hp'

end C8S
