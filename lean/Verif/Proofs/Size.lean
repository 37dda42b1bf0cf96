import Verif.Props.Tool
import Verif.Spec.Size

/- Lemmas on the size of the output. -/

namespace C8S

open Spec

theorem placeAt_length (a : Nat) (bytes : List U8) : (placeAt a bytes).length = bytes.length := by
  rw [← List.length_map (f := Prod.fst), placeAt_addresses, List.length_range']

theorem pairs_length (bytes : List U8) : (bytes.flatMap fun b => upperPair b.toNat).length = 2 * bytes.length := by
  induction bytes with
  | nil => rfl
  | cons b bytes ih =>
    rw [List.flatMap_cons, List.length_append, ih]
    simp only [upperPair, List.length_cons, List.length_nil]
    omega

theorem dataLine_length {a : Nat} {bytes : List U8} {line : Str} (h : IsDataLine a bytes line) :
    line.length = 11 + 2 * bytes.length := by
  obtain ⟨check, _, _, rfl⟩ := h
  simp only [List.length_cons, List.length_append, pairs_length]
  simp only [upperPair, List.length_cons, List.length_nil]
  omega

theorem rangeLines_length {a : Nat} {data : List U8} {lines : List Str} (h : RangeLines a data lines) :
    lines.length = (data.length + 15) / 16 ∧
      (lines.flatMap (· ++ ['\n'])).length = 12 * ((data.length + 15) / 16) + 2 * data.length := by
  induction h with
  | empty => exact ⟨rfl, rfl⟩
  | last h1 h2 h3 =>
    have := dataLine_length h3
    simp only [List.flatMap_cons, List.flatMap_nil, List.append_nil, List.length_append, List.length_cons, List.length_nil]
    omega
  | more h1 h2 h3 _ ih =>
    have := dataLine_length h3
    simp only [List.flatMap_cons, List.length_append, List.length_cons, List.length_nil]
    omega

theorem allLines_length {ranges : List DataRange} {lines : List Str} (h : AllLines ranges lines) :
    lines.length = recordCount ranges ∧
      (lines.flatMap (· ++ ['\n'])).length = 12 * recordCount ranges + 2 * (ranges.map fun r => r.data.length).sum := by
  induction h with
  | nil => exact ⟨rfl, rfl⟩
  | cons h1 _ ih =>
    obtain ⟨a, b⟩ := rangeLines_length h1
    simp only [recordCount, List.map_cons, List.sum_cons, List.flatMap_append, List.length_append] at ih ⊢
    omega

theorem nodup_bound : ∀ (n : Nat) (l : List Nat), l.Nodup → (∀ a ∈ l, a < n) → l.length ≤ n := by
  intro n
  induction n with
  | zero =>
    intro l _ h
    cases l with
    | nil => simp
    | cons a l => exact absurd (h a List.mem_cons_self) (by omega)
  | succ n ih =>
    intro l hn h
    have h1 := ih (l.erase n) (hn.erase n) (fun a ha => by
      have h2 := (hn.mem_erase_iff).1 ha
      have := h a h2.2
      omega)
    by_cases hm : n ∈ l
    · have := List.length_erase_of_mem hm
      omega
    · have := List.erase_of_not_mem hm
      rw [this] at h1
      omega

theorem image_length (ranges : List DataRange) : (image ranges).length = (ranges.map fun r => r.data.length).sum := by
  simp [image, List.length_flatMap, placeAt_length]

theorem recordCount_le (ranges : List DataRange) : recordCount ranges ≤ (ranges.map fun r => r.data.length).sum := by
  induction ranges with
  | nil => exact Nat.le_refl _
  | cons r ranges ih =>
    simp only [recordCount, List.map_cons, List.sum_cons] at ih ⊢
    omega

theorem upperDigit_mem : ∀ i : Fin 16, upperDigit i.val ∈ ":0123456789ABCDEF\n".toList := by decide +kernel

theorem upperPair_mem {b : Nat} (hb : b < 256) : ∀ c ∈ upperPair b, c ∈ ":0123456789ABCDEF\n".toList := by
  intro c hc
  simp only [upperPair, List.mem_cons, List.not_mem_nil, or_false] at hc
  rcases hc with rfl | rfl
  · exact upperDigit_mem ⟨b / 16, by omega⟩
  · exact upperDigit_mem ⟨b % 16, by omega⟩

theorem dataLine_mem {a : Nat} {bytes : List U8} {line : Str} (ha : a < 65536) (hb : bytes.length ≤ 255)
    (h : IsDataLine a bytes line) : ∀ c ∈ line, c ∈ ":0123456789ABCDEF\n".toList := by
  obtain ⟨check, h1, _, rfl⟩ := h
  intro c hc
  simp only [List.mem_cons, List.mem_append, List.mem_flatMap] at hc
  rcases hc with rfl | ((((hc | hc) | hc) | hc) | ⟨b, _, hc⟩) | hc
  · decide
  · exact upperPair_mem (by omega) c hc
  · exact upperPair_mem (by omega) c hc
  · exact upperPair_mem (by omega) c hc
  · exact upperPair_mem (by omega) c hc
  · exact upperPair_mem b.isLt c hc
  · exact upperPair_mem h1 c hc

theorem rangeLines_mem {a : Nat} {data : List U8} {lines : List Str} (h : RangeLines a data lines)
    (ha : a + data.length < 65536) : ∀ line ∈ lines, ∀ c ∈ line, c ∈ ":0123456789ABCDEF\n".toList := by
  induction h with
  | empty => simp
  | last h1 h2 h3 =>
    intro line hl
    cases List.mem_singleton.1 hl
    exact dataLine_mem (by omega) (by omega) h3
  | more h1 h2 h3 _ ih =>
    rw [List.length_append] at ha
    intro line hl
    rcases List.mem_cons.1 hl with rfl | hl
    · exact dataLine_mem (by omega) (by omega) h3
    · exact ih (by omega) line hl

theorem allLines_mem {ranges : List DataRange} {lines : List Str} (h : AllLines ranges lines)
    (hb : ∀ r ∈ ranges, rangeEnd r < 65536) : ∀ line ∈ lines, ∀ c ∈ line, c ∈ ":0123456789ABCDEF\n".toList := by
  induction h with
  | nil => simp
  | cons h1 _ ih =>
    intro line hl
    rcases List.mem_append.1 hl with hl | hl
    · exact rangeLines_mem h1 (hb _ List.mem_cons_self) line hl
    · exact ih (fun r hr => hb r (List.mem_cons_of_mem _ hr)) line hl

theorem hexChar_one : ∀ c ∈ ":0123456789ABCDEF\n".toList, (String.utf8EncodeChar c).length = 1 := by decide +kernel

theorem hexText_bytes {text : Str} (h : ∀ c ∈ text, c ∈ ":0123456789ABCDEF\n".toList) :
    (utf8 text).length = text.length := by
  induction text with
  | nil => rfl
  | cons c text ih =>
    have h1 := hexChar_one c (h c List.mem_cons_self)
    have h2 := ih fun d hd => h d (List.mem_cons_of_mem _ hd)
    rw [← utf8Bytes_eq] at h2 ⊢
    simp only [utf8Bytes, List.flatMap_cons, List.length_append, List.length_map, List.length_cons] at h2 ⊢
    omega

end C8S
