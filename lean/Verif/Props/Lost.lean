import Verif.Props.Slips
import Verif.Proofs.Lost

/- C98: lines of an object file that are lost, repeated or in another order. -/

namespace C8S

open Spec

/-- C98: whichever data lines of an object file are left, in whatever order and however often, the file is read. It loads
only bytes of the object file, and loads all of them exactly if no line is lost. -/
theorem C98_lines [Target] (text : Str) (lines lines' : List Str) (hl : ∀ l ∈ lines, '\n' ∉ l)
    (h : Builds text (lines.flatMap (· ++ ['\n']) ++ lastLine)) (hs : ∀ l ∈ lines', l ∈ lines) :
    ∃ m m', readHex (lines.flatMap (· ++ ['\n']) ++ lastLine) = some m ∧
      readHex (lines'.flatMap (· ++ ['\n']) ++ lastLine) = some m' ∧ (∀ p ∈ m', p ∈ m) ∧
      ((∀ p ∈ m, p ∈ m') ↔ ∀ l ∈ lines, l ∈ lines') := by
  obtain ⟨records, h1, h2, h3⟩ := written_lines hl h
  obtain ⟨records', h4, h5⟩ := each_selected h3 lines' hs
  have small := recordable_small h1
  have small' : ∀ b ∈ records', b.1 < 65536 ∧ b.2.length ≤ 255 := fun b hb => small b (h5 b hb)
  have inj : ∀ {p q : Nat × U8}, (p.1, p.2.toNat) = (q.1, q.2.toNat) → p = q := by
    rintro ⟨a, x⟩ ⟨b, y⟩ e
    simp only [Prod.mk.injEq] at e
    rw [e.1, BitVec.eq_of_toNat_eq e.2]
  refine ⟨_, _, readHex_lines h3 small, readHex_lines h4 small', ?_, ?_, ?_⟩
  · intro p hp
    obtain ⟨q, hq, rfl⟩ := List.mem_map.1 hp
    obtain ⟨b, hb, hqb⟩ := mem_recordBytes.1 hq
    exact List.mem_map.2 ⟨q, mem_recordBytes.2 ⟨b, h5 b hb, hqb⟩, rfl⟩
  · intro hall l hm
    obtain ⟨b, hb, hbl⟩ := each_mem_right h3 l hm
    have hr := (h1 b hb).1
    obtain ⟨a, data⟩ := b
    cases data with
    | nil => simp at hr
    | cons x data =>
      have hq : (a, x) ∈ placeAt a (x :: data) := by simp [placeAt]
      obtain ⟨q, hq', e⟩ := List.mem_map.1 (hall (a, x.toNat)
        (List.mem_map.2 ⟨(a, x), mem_recordBytes.2 ⟨_, hb, hq⟩, rfl⟩))
      obtain ⟨b', hb', hqb⟩ := mem_recordBytes.1 hq'
      have := record_of_address h2 hb (h5 b' hb') hq hqb (by rw [inj (q := (a, x)) e])
      subst this
      obtain ⟨l', hl', hbl'⟩ := each_mem_left h4 _ hb'
      rw [dataLine_unique hbl hbl']
      exact hl'
  · intro hall p hp
    obtain ⟨q, hq, rfl⟩ := List.mem_map.1 hp
    obtain ⟨b, hb, hqb⟩ := mem_recordBytes.1 hq
    obtain ⟨l, hl', hbl⟩ := each_mem_left h3 b hb
    obtain ⟨b', hb', hbl'⟩ := each_mem_right h4 l (hall l hl')
    have e : [b] = [b'] := blocks_of_lines (.cons hbl .nil) (.cons hbl' .nil)
      (fun c hc => by rw [List.mem_singleton.1 hc]; exact small b hb)
      (fun c hc => by rw [List.mem_singleton.1 hc]; exact small' b' hb')
    cases e
    exact List.mem_map.2 ⟨q, mem_recordBytes.2 ⟨b, hb', hqb⟩, rfl⟩

namespace LostExample

def source : Str := ".org $200\n.db 1\n.org $300\n.db 2\n".toList

def env : Env := ⟨fun _ => .ok (), fun _ => .ok source, fun _ => .ok (), fun _ _ => .ok ()⟩

theorem built : Builds source ([":0102000001FC".toList, ":0103000002FA".toList].flatMap (· ++ ['\n']) ++ lastLine) :=
  ⟨env, [], [], "-".toList, rfl, by decide +kernel, by decide +kernel⟩

end LostExample

/-- The second line twice and the first one lost: not all bytes are loaded. -/
example : ∃ m m', readHex ":0102000001FC\n:0103000002FA\n:00000001FF\n".toList = some m ∧
    readHex ":0103000002FA\n:0103000002FA\n:00000001FF\n".toList = some m' ∧ (∀ p ∈ m', p ∈ m) ∧ ¬ ∀ p ∈ m, p ∈ m' := by
  obtain ⟨m, m', h1, h2, h3, h4⟩ := C98_lines LostExample.source [":0102000001FC".toList, ":0103000002FA".toList]
    [":0103000002FA".toList, ":0103000002FA".toList] (by decide) LostExample.built (by decide)
  exact ⟨m, m', h1, h2, h3, fun hall => absurd (h4.1 hall) (by decide)⟩

/-- C98: an object file loads the same bytes in whatever order its data lines are. -/
theorem C98_reordered [Target] (text : Str) (lines order : List Str) (hl : ∀ l ∈ lines, '\n' ∉ l)
    (h : Builds text (lines.flatMap (· ++ ['\n']) ++ lastLine)) (hp : order.Perm lines) :
    ∃ m m', readHex (lines.flatMap (· ++ ['\n']) ++ lastLine) = some m ∧
      readHex (order.flatMap (· ++ ['\n']) ++ lastLine) = some m' ∧ m'.Perm m := by
  obtain ⟨records, h1, _, h3⟩ := written_lines hl h
  obtain ⟨records', h4, h5⟩ := each_perm hp h3
  have small := recordable_small h1
  refine ⟨_, _, readHex_lines h3 small, readHex_lines h5 fun b hb => small b (h4.mem_iff.1 hb), ?_⟩
  exact (h4.flatMap_right _).map _

example : ∃ m m', readHex ":0102000001FC\n:0103000002FA\n:00000001FF\n".toList = some m ∧
    readHex ":0103000002FA\n:0102000001FC\n:00000001FF\n".toList = some m' ∧ m'.Perm m :=
  C98_reordered LostExample.source [":0102000001FC".toList, ":0103000002FA".toList]
    [":0103000002FA".toList, ":0102000001FC".toList] (by decide) LostExample.built (.swap _ _ _)

end C8S
