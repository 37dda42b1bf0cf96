import Verif.Spec.Memory

namespace C8S

open Spec

theorem rangeEnd_eq (r : DataRange) : rangeEnd r = r.startAddress.toNat + r.data.length := rfl

theorem addressRange_end (r : DataRange) :
    r.addressRange.2.toNat = rangeEnd r % 4096 := by
  simp [DataRange.addressRange, DataRange.len, rangeEnd]

theorem addressRange_end_of_lt {r : DataRange} (h : rangeEnd r < 4096) :
    r.addressRange.2.toNat = rangeEnd r := by
  rw [addressRange_end, Nat.mod_eq_of_lt h]

theorem addressRange_start (r : DataRange) : r.addressRange.1 = r.startAddress := rfl

theorem shares_iff {r s : DataRange} :
    Shares r s ↔ max r.startAddress.toNat s.startAddress.toNat < min (rangeEnd r) (rangeEnd s) := by
  constructor
  · rintro ⟨a, ⟨h1, h2⟩, h3, h4⟩
    omega
  · intro h
    exact ⟨max r.startAddress.toNat s.startAddress.toNat, ⟨by omega, by omega⟩, by omega, by omega⟩

theorem shares_symm {r s : DataRange} (h : Shares r s) : Shares s r := by
  obtain ⟨a, h1, h2⟩ := h
  exact ⟨a, h2, h1⟩

instance (r s : DataRange) : Decidable (Shares r s) := decidable_of_iff _ shares_iff.symm

theorem intersects_iff_of_lt {r s : DataRange} (hr : rangeEnd r < 4096) (hs : rangeEnd s < 4096) :
    r.intersects s = true ↔ Shares r s := by
  rw [shares_iff]
  simp only [DataRange.intersects, addressRange_start, addressRange_end_of_lt hr, addressRange_end_of_lt hs,
    decide_eq_true_eq]

theorem bytesRemaining_eq {r : DataRange} (h : InMemory r) :
    r.bytesRemaining = .ret (memorySize - rangeEnd r) := by
  have h1 := r.startAddress.isLt
  unfold InMemory rangeEnd memorySize at *
  unfold DataRange.bytesRemaining DataRange.len
  simp only
  rw [if_pos (by omega)]
  congr 1
  omega

theorem append_eq {r : DataRange} (h : InMemory r) (data : List U8) :
    r.append data = if rangeEnd r + data.length ≤ memorySize
      then .ret (true, ⟨r.startAddress, r.data ++ data⟩) else .ret (false, r) := by
  unfold DataRange.append
  rw [bytesRemaining_eq h]
  simp only [Run.ret_bind]
  unfold InMemory at h
  split <;> split <;> first | rfl | omega

theorem findOverlappingRanges_nil : findOverlappingRanges [] = [] := rfl

end C8S
