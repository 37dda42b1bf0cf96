import Verif.Proofs.Written

/- Property C125: which files the tool can write. -/

namespace C8S

open Spec

/-! ### C125 -/

/-- C125: a text is an object file the tool writes for some source exactly if it has one line for each of some data
records, each of 1 to 16 bytes below the last address and no two with a byte at the same address, and then the last line. -/
theorem C125_files [Target] (hex : Str) : (∃ text, Builds text hex) ↔ ∃ records, (∀ b ∈ records, Recordable b) ∧
    NoCollision (recordBytes records) ∧ FileOf records hex := by
  constructor
  · rintro ⟨text, h⟩
    obtain ⟨records, h1, h2, h3, _⟩ := written_of_builds h
    exact ⟨records, h1, h2, h3⟩
  · rintro ⟨records, h1, h2, h3⟩
    exact ⟨_, builds_of_written h1 h2 h3⟩

/-- C125: a source for such a text has an `.org` and a `.db` for each of the records. -/
theorem C125_source [Target] (records : List (Nat × List U8)) (hex : Str) (h : ∀ b ∈ records, Recordable b)
    (hn : NoCollision (recordBytes records)) (hf : FileOf records hex) : Builds (recordsSource records) hex :=
  builds_of_written h hn hf

namespace WrittenExample

/-- Two records that are not in the order of their addresses. -/
def records : List (Nat × List U8) := [(0x300, [1]), (0x200, [0x12, 0])]

theorem file : FileOf records ":0103000001FB\n:020200001200EA\n:00000001FF\n".toList :=
  ⟨[":0103000001FB".toList, ":020200001200EA".toList],
    .cons ⟨0xFB, by decide, by decide, by decide +kernel⟩ (.cons ⟨0xEA, by decide, by decide, by decide +kernel⟩ .nil),
    by decide +kernel⟩

theorem recordable : ∀ b ∈ records, Recordable b := by unfold Recordable; decide +kernel

theorem distinct : NoCollision (recordBytes records) := by unfold NoCollision; decide +kernel

example : recordsSource records = ".org 768\n.db 1\n.org 512\n.db 18, 0\n".toList := by decide +kernel

example [Target] : Builds (recordsSource records) ":0103000001FB\n:020200001200EA\n:00000001FF\n".toList :=
  C125_source _ _ recordable distinct file

end WrittenExample

/-- C125: lines taken out of an object file, or put in another order, leave a text that is an object file of the tool too,
as long as its last line stays where it is. -/
theorem C125_lines [Target] (text : Str) (lines lines' order : List Str) (hl : ∀ l ∈ lines, '\n' ∉ l)
    (h : Builds text (lines.flatMap (· ++ ['\n']) ++ lastLine)) (hp : order.Perm lines) (hs : lines'.Sublist order) :
    ∃ text', Builds text' (lines'.flatMap (· ++ ['\n']) ++ lastLine) := by
  obtain ⟨records, h1, h2, h3⟩ := written_lines hl h
  obtain ⟨l, h4, h5⟩ := each_perm hp h3
  obtain ⟨records', h6, h7⟩ := each_sublist hs h5
  exact ⟨_, builds_of_written (fun b hb => h1 b (h4.mem_iff.1 (h6.subset hb))) (recordBytes_nodup h4 h6 h2) ⟨lines', h7, rfl⟩⟩

example [Target] : ∃ text, Builds text (([":020200001200EA".toList] : List Str).flatMap (· ++ ['\n']) ++ lastLine) :=
  C125_lines _ [":0103000001FB".toList, ":020200001200EA".toList] _ [":020200001200EA".toList, ":0103000001FB".toList]
    (by decide +kernel) (C125_source _ _ WrittenExample.recordable WrittenExample.distinct WrittenExample.file)
    (.swap _ _ _) (by decide +kernel)

/-- C125: the lines of two object files make up one exactly if no address is used by both. -/
theorem C125_joined [Target] (text text' body body' : Str) (h : Builds text (body ++ lastLine))
    (h' : Builds text' (body' ++ lastLine)) :
    (∃ whole, Builds whole (body ++ body' ++ lastLine)) ↔
      (loadedAddresses (body ++ lastLine) ++ loadedAddresses (body' ++ lastLine)).Nodup := by
  obtain ⟨rs, h1, _, h3, h4⟩ := written_of_builds h
  obtain ⟨rs', h1', _, h3', h4'⟩ := written_of_builds h'
  have hr : ∀ b ∈ rs ++ rs', Recordable b := fun b hb => (List.mem_append.1 hb).elim (h1 b) (h1' b)
  have hf := fileOf_append h3 h3'
  rw [loaded_of_hexOf h4, loaded_of_hexOf h4', ← List.map_append]
  have e : recordBytes rs ++ recordBytes rs' = recordBytes (rs ++ rs') := by
    unfold recordBytes
    rw [List.flatMap_append]
  rw [e]
  constructor
  · rintro ⟨whole, hw⟩
    obtain ⟨ws, g1, g2, g3, _⟩ := written_of_builds hw
    cases fileOf_unique g1 hr g3 hf
    exact g2
  · intro hn
    exact ⟨_, builds_of_written hr hn hf⟩

/-- The line of the record at `$300`, twice or with the one at `$200`. -/
example [Target] (text text' : Str) (h : Builds text (":0103000001FB\n".toList ++ lastLine))
    (h' : Builds text' (":020200001200EA\n".toList ++ lastLine)) :
    (∃ whole, Builds whole (":0103000001FB\n".toList ++ ":020200001200EA\n".toList ++ lastLine)) ∧
    ¬ ∃ whole, Builds whole (":0103000001FB\n".toList ++ ":0103000001FB\n".toList ++ lastLine) :=
  ⟨(C125_joined _ _ _ _ h h').2 (by decide +kernel), fun hw => absurd ((C125_joined _ _ _ _ h h).1 hw) (by decide +kernel)⟩

example [Target] : ∃ text, Builds text (":0103000001FB\n".toList ++ lastLine) :=
  ⟨_, C125_source [(0x300, [1])] _ (by unfold Recordable; decide) (by unfold NoCollision; decide)
    ⟨[":0103000001FB".toList], .cons ⟨0xFB, by decide, by decide, by decide +kernel⟩ .nil, by decide +kernel⟩⟩

end C8S
