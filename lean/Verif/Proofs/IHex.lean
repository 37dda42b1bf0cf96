import Verif.Spec.IntelHex
import Verif.Model.IHex

/- Lemmas on the Intel HEX writer and reader. -/

namespace C8S

open Spec

/-! ### Digits -/

theorem hexByte_fin : ∀ i : Fin 256, hexByte (BitVec.ofFin i) = upperPair i.val := by decide +kernel

theorem hexByte_eq (b : U8) : hexByte b = upperPair b.toNat := hexByte_fin b.toFin

theorem readDigit_upper : ∀ i : Fin 16, readDigit (upperDigit i.val) = some i.val := by decide +kernel

theorem upperDigit_ne : ∀ i : Fin 16, upperDigit i.val ≠ '\n' := by decide +kernel

theorem readPairs_upper {b : Nat} (hb : b < 256) (rest : Str) :
    readPairs (upperPair b ++ rest) = (readPairs rest).map (b :: ·) := by
  have h1 := readDigit_upper ⟨b / 16, by omega⟩
  have h2 := readDigit_upper ⟨b % 16, by omega⟩
  simp only [upperPair, List.cons_append, List.nil_append, readPairs]
  simp only at h1 h2
  rw [h1, h2]
  cases readPairs rest with
  | none => rfl
  | some bytes =>
    simp
    omega

theorem readPairs_bytes (bytes : List U8) (rest : Str) :
    readPairs (bytes.flatMap (fun b => upperPair b.toNat) ++ rest) = (readPairs rest).map (bytes.map BitVec.toNat ++ ·) := by
  induction bytes with
  | nil => simp
  | cons b bytes ih =>
    rw [List.flatMap_cons, List.append_assoc, readPairs_upper b.isLt, ih]
    cases readPairs rest <;> simp

/-! ### Records -/

theorem foldl_add_toNat (bytes : List U8) (acc : U8) :
    (bytes.foldl (· + ·) acc).toNat = (acc.toNat + (bytes.map BitVec.toNat).sum) % 256 := by
  induction bytes generalizing acc with
  | nil =>
    have := acc.isLt
    simp
    omega
  | cons b bytes ih =>
    rw [List.foldl_cons, ih]
    simp
    omega

theorem checksum_toNat (bytes : List U8) :
    ((bytes.map BitVec.toNat).sum + (ihexChecksum bytes).toNat) % 256 = 0 := by
  simp only [ihexChecksum]
  rw [BitVec.toNat_sub, foldl_add_toNat]
  simp
  omega

/-- The lines of a record. -/
def RecordLine : Record → Str → Prop
  | .data offset value, line => IsDataLine offset.toNat value line
  | .endOfFile, line => line = ":00000001FF".toList

theorem dataLine_exists {offset : U16} {value : List U8} (h : value.length ≤ 255) :
    ∃ line, (Record.data offset value).toRecordString = some line ∧ IsDataLine offset.toNat value line := by
  have ho := offset.isLt
  simp only [Record.toRecordString, formatRecord]
  rw [if_neg (by omega)]
  refine ⟨_, rfl, (ihexChecksum ([BitVec.ofNat 8 value.length, (offset >>> 8).setWidth 8, offset.setWidth 8, 0] ++ value)).toNat,
    BitVec.isLt _, ?_, ?_⟩
  · have := checksum_toNat ([BitVec.ofNat 8 value.length, (offset >>> 8).setWidth 8, offset.setWidth 8, 0] ++ value)
    have e1 : ((offset >>> 8).setWidth 8 : U8).toNat = offset.toNat / 256 := by
      simp [Nat.shiftRight_eq_div_pow]
      omega
    have e2 : (offset.setWidth 8 : U8).toNat = offset.toNat % 256 := by simp
    have e3 : (BitVec.ofNat 8 value.length).toNat = value.length := by
      simp
      omega
    simp only [List.map_append, List.map_cons, List.map_nil, List.sum_append, List.sum_cons, List.sum_nil, e1, e2, e3] at this
    rw [← this]
    congr 1
    simp
    omega
  · have e1 : ((offset >>> 8).setWidth 8 : U8).toNat = offset.toNat / 256 := by
      simp [Nat.shiftRight_eq_div_pow]
      omega
    have e2 : (offset.setWidth 8 : U8).toNat = offset.toNat % 256 := by simp
    have e3 : (BitVec.ofNat 8 value.length).toNat = value.length := by
      simp
      omega
    have e4 : hexByte = fun b => upperPair b.toNat := funext hexByte_eq
    simp only [List.flatMap_append, List.flatMap_cons, List.flatMap_nil, e4, e1, e2, e3]
    simp

theorem eofLine : Record.toRecordString .endOfFile = some ":00000001FF".toList := by decide +kernel

theorem addressed_placeAt (a : Nat) (bytes : List U8) :
    addressed a (bytes.map BitVec.toNat) = (placeAt a bytes).map fun p => (p.1, p.2.toNat) := by
  induction bytes generalizing a with
  | nil => rfl
  | cons b bytes ih => simp [addressed, placeAt, ih]

theorem readRecord_data {a : Nat} {bytes : List U8} {line : Str} (ha : a < 65536) (hb : bytes.length ≤ 255)
    (h : IsDataLine a bytes line) : readRecord line = some (.data a (bytes.map BitVec.toNat)) := by
  obtain ⟨check, hc, hs, rfl⟩ := h
  simp only [List.append_assoc]
  simp only [readRecord]
  rw [readPairs_upper (by omega), readPairs_upper (by omega), readPairs_upper (by omega), readPairs_upper (by omega),
    readPairs_bytes]
  have := readPairs_upper hc []
  rw [List.append_nil] at this
  rw [this]
  simp only [readPairs, Option.map_some, List.length_append, List.length_map, List.length_cons, List.length_nil]
  rw [if_neg (by simp), if_neg]
  · simp
    omega
  · rw [← hs]
    simp
    omega

theorem readRecord_eof : readRecord ":00000001FF".toList = some .finish := by decide +kernel

theorem linesOf_line (line acc rest : Str) (h : '\n' ∉ line) :
    linesOf acc (line ++ '\n' :: rest) = (linesOf [] rest).map ((acc ++ line) :: ·) := by
  induction line generalizing acc with
  | nil => simp [linesOf]
  | cons c line ih =>
    simp only [List.mem_cons, not_or] at h
    rw [List.cons_append, linesOf, if_neg (fun e => h.1 e.symm), ih _ h.2]
    simp

theorem linesOf_lines (lines : List Str) (h : ∀ l ∈ lines, '\n' ∉ l) :
    linesOf [] (lines.flatMap (· ++ ['\n'])) = some lines := by
  induction lines with
  | nil => rfl
  | cons l lines ih =>
    rw [List.flatMap_cons, List.append_assoc, List.singleton_append, linesOf_line _ _ _ (h l List.mem_cons_self),
      ih fun x hx => h x (List.mem_cons_of_mem _ hx)]
    rfl

theorem newline_upperPair {b : Nat} (h : b < 256) : '\n' ∉ upperPair b := by
  simp only [upperPair, List.mem_cons, List.not_mem_nil, or_false, not_or]
  exact ⟨fun e => upperDigit_ne ⟨b / 16, by omega⟩ e.symm, fun e => upperDigit_ne ⟨b % 16, by omega⟩ e.symm⟩

theorem newline_dataLine {a : Nat} {bytes : List U8} {line : Str} (ha : a < 65536) (hb : bytes.length ≤ 255)
    (h : IsDataLine a bytes line) : '\n' ∉ line := by
  obtain ⟨check, hc, hs, rfl⟩ := h
  simp only [List.mem_cons, List.mem_append, List.mem_flatMap, not_or, not_exists, not_and]
  refine ⟨by decide, ⟨⟨⟨⟨?_, ?_⟩, ?_⟩, ?_⟩, ?_⟩, ?_⟩
  · exact newline_upperPair (by omega)
  · exact newline_upperPair (by omega)
  · exact newline_upperPair (by omega)
  · exact newline_upperPair (by omega)
  · exact fun b _ => newline_upperPair b.isLt
  · exact newline_upperPair hc

/-! ### Ranges -/

/-- The records of a range. -/
inductive RangeRecords : Nat → List U8 → List Record → Prop where
  | empty {a : Nat} : RangeRecords a [] []
  | last {a : Nat} {bytes : List U8} : 1 ≤ bytes.length → bytes.length ≤ 16 →
    RangeRecords a bytes [.data (BitVec.ofNat 16 a) bytes]
  | more {a : Nat} {bytes rest : List U8} {records : List Record} :
    bytes.length = 16 → rest ≠ [] → RangeRecords (a + 16) rest records →
    RangeRecords a (bytes ++ rest) (.data (BitVec.ofNat 16 a) bytes :: records)

theorem rangeRecords_nil {a : Nat} {records : List Record} (h : RangeRecords a [] records) : records = [] := by
  generalize hd : ([] : List U8) = data at h
  cases h with
  | empty => rfl
  | last h1 => subst hd; simp at h1
  | more h1 =>
    have := congrArg List.length hd
    simp at this
    omega

theorem records_of_chunks (fuel : Nat) : ∀ (data : List U8) (a : Nat), data.length ≤ fuel → a + data.length < 65536 →
    ∃ records, recordsOfChunks (chunksOf 16 fuel data) a = .ret records ∧ RangeRecords a data records := by
  induction fuel with
  | zero =>
    intro data a h _
    have : data = [] := List.length_eq_zero_iff.1 (by omega)
    subst this
    exact ⟨[], rfl, .empty⟩
  | succ fuel ih =>
    intro data a h ha
    by_cases hd : data = []
    · subst hd
      exact ⟨[], by simp [chunksOf, recordsOfChunks], .empty⟩
    · have hpos : 1 ≤ data.length := by
        have := List.length_pos_iff.2 hd
        omega
      rw [chunksOf, if_neg hd, recordsOfChunks]
      have hlen : (data.take 16).length = min 16 data.length := List.length_take
      have hdrop : (data.drop 16).length = data.length - 16 := List.length_drop
      rw [if_pos (by omega)]
      obtain ⟨records, h1, h2⟩ := ih (data.drop 16) (a + (data.take 16).length) (by omega) (by omega)
      rw [h1]
      refine ⟨_, rfl, ?_⟩
      by_cases hs : data.length ≤ 16
      · have : data.drop 16 = [] := List.drop_eq_nil_of_le hs
        rw [this] at h2
        rw [rangeRecords_nil h2, List.take_of_length_le hs]
        exact .last hpos hs
      · have e := List.take_append_drop 16 data
        have hne : data.drop 16 ≠ [] := by
          intro hn
          rw [hn] at hdrop
          simp at hdrop
          omega
        rw [show (data.take 16).length = 16 by omega] at h2
        have := RangeRecords.more (bytes := data.take 16) (by omega) hne h2
        rwa [e] at this

theorem range_lines {a : Nat} {data : List U8} {records : List Record} (h : RangeRecords a data records)
    (ha : a + data.length ≤ 65535) :
    ∃ lines, records.mapM Record.toRecordString = some lines ∧ RangeLines a data lines ∧
      (∀ l ∈ lines, '\n' ∉ l) ∧
      ∀ rest, readRecords (lines ++ rest) =
        (readRecords rest).map (((placeAt a data).map fun p => (p.1, p.2.toNat)) ++ ·) := by
  induction h with
  | empty => exact ⟨[], rfl, .empty, by simp, fun rest => by simp [placeAt]⟩
  | @last a bytes h1 h2 =>
    obtain ⟨line, hl, hd⟩ := dataLine_exists (offset := BitVec.ofNat 16 a) (value := bytes) (by omega)
    rw [show (BitVec.ofNat 16 a).toNat = a by simp; omega] at hd
    refine ⟨[line], by simp [hl], .last h1 h2 hd, ?_, fun rest => ?_⟩
    · intro l hm
      simp only [List.mem_singleton] at hm
      subst hm
      exact newline_dataLine (by omega) (by omega) hd
    · simp only [List.cons_append, List.nil_append, readRecords]
      rw [readRecord_data (by omega) (by omega) hd]
      simp only [addressed_placeAt]
  | @more a bytes more records h1 h2 _ ih =>
    obtain ⟨line, hl, hd⟩ := dataLine_exists (offset := BitVec.ofNat 16 a) (value := bytes) (by omega)
    rw [List.length_append] at ha
    rw [show (BitVec.ofNat 16 a).toNat = a by simp; omega] at hd
    obtain ⟨lines, hm, hr, hn, hread⟩ := ih (by omega)
    refine ⟨line :: lines, by simp [hl, hm], .more h1 h2 hd hr, ?_, fun rest => ?_⟩
    · intro l hm
      rcases List.mem_cons.1 hm with rfl | hm
      · exact newline_dataLine (by omega) (by omega) hd
      · exact hn l hm
    · simp only [List.cons_append, readRecords]
      rw [readRecord_data (by omega) (by omega) hd]
      simp only
      rw [hread rest, addressed_placeAt]
      have hp : placeAt a (bytes ++ more) = placeAt a bytes ++ placeAt (a + 16) more := by
        have : ∀ (p q : List U8) a, placeAt a (p ++ q) = placeAt a p ++ placeAt (a + p.length) q := by
          intro p
          induction p with
          | nil => intro q a; simp [placeAt]
          | cons b p ih => intro q a; simp [placeAt, ih, Nat.add_assoc, Nat.add_comm 1]
        rw [this, h1]
      rw [hp, Option.map_map]
      congr 1
      funext x
      simp

theorem ranges_lines (ranges : List DataRange) (h : ∀ r ∈ ranges, rangeEnd r ≤ memorySize) :
    ∃ records lines, recordsOfRanges ranges = .ret records ∧ .endOfFile ∉ records ∧
      records.mapM Record.toRecordString = some lines ∧ AllLines ranges lines ∧ (∀ l ∈ lines, '\n' ∉ l) ∧
      ∀ rest, readRecords (lines ++ rest) =
        (readRecords rest).map (((image ranges).map fun p => (p.1, p.2.toNat)) ++ ·) := by
  induction ranges with
  | nil => exact ⟨[], [], rfl, by simp, rfl, .nil, by simp, fun rest => by simp [image]⟩
  | cons r ranges ih =>
    have hr := h r List.mem_cons_self
    simp only [rangeEnd, memorySize] at hr
    obtain ⟨records, lines, h1, h2, h3, h4, h5, h6⟩ := ih fun x hx => h x (List.mem_cons_of_mem _ hx)
    obtain ⟨recs, hr1, hr2⟩ := records_of_chunks r.data.length r.data r.startAddress.toNat (Nat.le_refl _) (by omega)
    obtain ⟨ls, hl1, hl2, hl3, hl4⟩ := range_lines hr2 (by omega)
    have hne : ∀ {a data recs}, RangeRecords a data recs → Record.endOfFile ∉ recs := by
      intro a data recs h
      induction h with
      | empty => simp
      | last => simp
      | more _ _ _ ih => simp [ih]
    refine ⟨recs ++ records, ls ++ lines, ?_, ?_, ?_, .cons hl2 h4, ?_, fun rest => ?_⟩
    · rw [recordsOfRanges]
      simp only [DataRange.addressRange]
      rw [hr1, h1]
    · simp only [List.mem_append, not_or]
      exact ⟨hne hr2, h2⟩
    · rw [List.mapM_append, hl1, h3]
      rfl
    · intro l hm
      rcases List.mem_append.1 hm with hm | hm
      · exact hl3 l hm
      · exact h5 l hm
    · rw [List.append_assoc, hl4, h6, Option.map_map]
      congr 1
      funext x
      simp [image]

theorem joinWith_newline (lines : List Str) (h : lines ≠ []) :
    joinWith "\n".toList lines ++ "\n".toList = lines.flatMap (· ++ ['\n']) := by
  induction lines with
  | nil => exact (h rfl).elim
  | cons l lines ih =>
    cases lines with
    | nil => simp [joinWith]
    | cons m lines =>
      rw [joinWith, List.flatMap_cons, ← ih (by simp)]
      · simp
      · simp

theorem ihex_text (ranges : List DataRange) (h : ∀ r ∈ ranges, rangeEnd r ≤ memorySize)
    (hov : findOverlappingRanges ranges = []) :
    ∃ lines, AllLines ranges lines ∧
      ihexRepresentationOfDataRanges ranges =
        .ret ((lines ++ [":00000001FF".toList]).flatMap (· ++ ['\n'])) ∧
      readHex ((lines ++ [":00000001FF".toList]).flatMap (· ++ ['\n'])) =
        some ((image ranges).map fun p => (p.1, p.2.toNat)) := by
  obtain ⟨records, lines, h1, h2, h3, h4, h5, h6⟩ := ranges_lines ranges h
  refine ⟨lines, h4, ?_, ?_⟩
  · have hc : createObjectFileRepresentation (records ++ [.endOfFile]) =
        some (joinWith "\n".toList (lines ++ [":00000001FF".toList])) := by
      unfold createObjectFileRepresentation
      rw [if_neg (by simp), if_neg]
      · rw [List.mapM_append, h3]
        simp [eofLine]
      · rw [List.filter_append, List.filter_eq_nil_iff.2]
        · simp
        · intro r hr he
          simp at he
          subst he
          exact h2 hr
    unfold ihexRepresentationOfDataRanges
    rw [hov, h1, ← joinWith_newline _ (by simp)]
    simp [rustAssert, rustUnwrap, hc]
  · have hn : ∀ l ∈ lines ++ [":00000001FF".toList], '\n' ∉ l := by
      intro l hm
      rcases List.mem_append.1 hm with hm | hm
      · exact h5 l hm
      · simp only [List.mem_singleton] at hm
        subst hm
        decide
    unfold readHex
    rw [linesOf_lines _ hn]
    simp only
    rw [h6]
    simp only [readRecords, readRecord_eof]
    simp

end C8S
