import Verif.Proofs.Identify

/- Property C106: a message identifies what is wrong and where. -/

namespace C8S

open Spec

/-! ### C106 -/

/-- C106: a text is a valid program without overlaps, or there is exactly one thing that is found wrong with it. -/
theorem C106_one [Target] (input text : Str) :
    ((¬ ∃ bytes, Describes wordBinary input text bytes ∧ NoCollision bytes) ↔ ∃ f, HasMistake input text f) ∧
    ∀ f f', HasMistake input text f → HasMistake input text f' → f = f' := by
  constructor
  · constructor
    · intro h
      obtain ⟨tokens, hs, _⟩ := scan_lex input text
      obtain ⟨out, hp⟩ := C10_total tokens
      cases out with
      | error e => exact ⟨_, .syntactic hs hp⟩
      | ok nodes =>
        cases ha : assemble nodes with
        | panic => exact (assemble_no_panic (program_registers ((parse_ok_iff _ _).1 hp)) ha).elim
        | ret r =>
          cases r with
          | error e => exact ⟨_, .semantic hs hp ha⟩
          | ok ranges =>
            refine ⟨_, .overlap hs hp ha fun he => h ⟨image ranges, ?_, (C41_overlap nodes ranges ha).1 he⟩⟩
            exact (describes_iff _ _ _).2 ⟨tokens, nodes, ranges, hs, hp, ha, rfl⟩
    · rintro ⟨f, hf⟩ ⟨bytes, hd, hc⟩
      obtain ⟨tokens, nodes, ranges, hs, hp, ha, rfl⟩ := (describes_iff _ _ _).1 hd
      cases hf with
      | syntactic hs' hp' =>
        cases hs.symm.trans hs'
        cases hp.symm.trans hp'
      | semantic hs' hp' ha' =>
        cases hs.symm.trans hs'
        cases hp.symm.trans hp'
        cases ha.symm.trans ha'
      | overlap hs' hp' ha' hne =>
        cases hs.symm.trans hs'
        cases hp.symm.trans hp'
        cases ha.symm.trans ha'
        exact hne ((C41_overlap nodes ranges ha).2 hc)
  · intro f f' h h'
    cases h with
    | syntactic hs hp =>
      cases h' with
      | syntactic hs' hp' => cases hs.symm.trans hs'; cases hp.symm.trans hp'; rfl
      | semantic hs' hp' _ => cases hs.symm.trans hs'; cases hp.symm.trans hp'
      | overlap hs' hp' _ _ => cases hs.symm.trans hs'; cases hp.symm.trans hp'
    | semantic hs hp ha =>
      cases h' with
      | syntactic hs' hp' => cases hs.symm.trans hs'; cases hp.symm.trans hp'
      | semantic hs' hp' ha' => cases hs.symm.trans hs'; cases hp.symm.trans hp'; cases ha.symm.trans ha'; rfl
      | overlap hs' hp' ha' _ => cases hs.symm.trans hs'; cases hp.symm.trans hp'; cases ha.symm.trans ha'
    | overlap hs hp ha _ =>
      cases h' with
      | syntactic hs' hp' => cases hs.symm.trans hs'; cases hp.symm.trans hp'
      | semantic hs' hp' ha' => cases hs.symm.trans hs'; cases hp.symm.trans hp'; cases ha.symm.trans ha'
      | overlap hs' hp' ha' _ => cases hs.symm.trans hs'; cases hp.symm.trans hp'; cases ha.symm.trans ha'; rfl

example : HasMistake "f".toList "ld v1, $123\n".toList
    (.semantic (.assemblyFailed ⟨"f".toList, 1, 1, 2⟩ (.expectingEightBitValue 0x123))) := .semantic rfl rfl rfl

/-- C106: two texts of the same file, each with something wrong, get the same messages exactly if the same is wrong with
them at the same place, but for what messages do not show. -/
theorem C106_messages [Target] (env env' : Env) (program input output output' text text' : Str) (f f' : Mistake)
    (h : HasMistake input text f) (h' : HasMistake input text' f') :
    assembleText env program input output text = assembleText env' program input output' text' ↔ told f = told f' := by
  constructor
  · intro e
    by_cases ho : ∃ pairs, f = .overlap pairs
    · obtain ⟨pairs, rfl⟩ := ho
      obtain ⟨hne, hm⟩ := overlap_message env program input output text h
      by_cases ho' : ∃ pairs, f' = .overlap pairs
      · obtain ⟨pairs', rfl⟩ := ho'
        obtain ⟨_, hm'⟩ := overlap_message env' program input output' text' h'
        rw [hm, hm'] at e
        injection e with e _
        show Mistake.overlap _ = Mistake.overlap _
        rw [overlapEvents_unique (List.append_cancel_left e)]
      · obtain ⟨m, _, hm'⟩ := mistake_message env' program input output' text' h' (fun p hp => ho' ⟨p, hp⟩)
        rw [hm, hm'] at e
        injection e with e _
        have := congrArg List.length e
        simp at this
    · obtain ⟨m, hM, hm⟩ := mistake_message env program input output text h (fun p hp => ho ⟨p, hp⟩)
      by_cases ho' : ∃ pairs, f' = .overlap pairs
      · obtain ⟨pairs', rfl⟩ := ho'
        obtain ⟨_, hm'⟩ := overlap_message env' program input output' text' h'
        rw [hm, hm'] at e
        injection e with e _
        have := congrArg List.length e
        simp at this
      · obtain ⟨m', hM', hm'⟩ := mistake_message env' program input output' text' h' (fun p hp => ho' ⟨p, hp⟩)
        rw [hm, hm'] at e
        injection e with e _
        injection e with e _
        injection e with e
        exact message_unique hM hM' e
  · intro e
    cases h with
    | @syntactic tokens er hs hp =>
      cases h' with
      | syntactic hs' hp' =>
        unfold assembleText
        simp only [hs, hp, hs', hp', parse_display_told e]
      | @semantic tokens nodes er' hs' hp' _ =>
        cases er <;> cases er' <;> cases e
      | overlap hs' hp' _ _ => cases er <;> cases e
    | @semantic tokens nodes er hs hp ha =>
      cases h' with
      | @syntactic tokens er' hs' hp' => cases er <;> cases er' <;> cases e
      | semantic hs' hp' ha' =>
        unfold assembleText
        simp only [hs, hp, hs', hp', ha, ha', semantic_display_told e]
      | overlap hs' hp' _ _ => cases er <;> cases e
    | overlap hs hp ha hne =>
      cases h' with
      | @syntactic tokens er' hs' hp' => cases er' <;> cases e
      | @semantic tokens nodes er' hs' hp' ha' => cases er' <;> cases e
      | overlap hs' hp' ha' hne' =>
        obtain ⟨_, hm⟩ := overlap_message env program input output text (.overlap hs hp ha hne)
        obtain ⟨_, hm'⟩ := overlap_message env' program input output' text' (.overlap hs' hp' ha' hne')
        injection e with e
        rw [hm, hm', ← overlapEvents_told, e, overlapEvents_told]

/-- C106: the same of whole runs, on the contents of a file before and after a change. -/
theorem C106_files [Target] (env env' : Env) (program input output output' text text' : Str) (f f' : Mistake)
    (hopen : env.openInput input = .ok () ∧ env'.openInput input = .ok ())
    (hread : env.readInput input = .ok text ∧ env'.readInput input = .ok text')
    (h : HasMistake input text f) (h' : HasMistake input text' f') :
    assembleFile env program input output = assembleFile env' program input output' ↔ told f = told f' := by
  rw [← C106_messages env env' program input output output' text text' f f' h h']
  unfold assembleFile
  simp only [hopen.1, hopen.2, hread.1, hread.2]
  constructor
  · intro e
    injection e with e1 e2
    injection e1 with _ e1
    injection e1 with _ e1
    cases ha : assembleText env program input output text
    cases hb : assembleText env' program input output' text'
    rw [ha, hb] at e1 e2
    simp only at e1 e2
    rw [e1, e2]
  · intro e
    rw [e]

/-- Undefined labels of different names at the same place, which get different messages. -/
example : HasMistake "f".toList "jp a\n".toList (.semantic (.assemblyFailed ⟨"f".toList, 1, 1, 2⟩ (.unableToResolveLabel "a".toList))) ∧
    HasMistake "f".toList "jp x\n".toList (.semantic (.assemblyFailed ⟨"f".toList, 1, 1, 2⟩ (.unableToResolveLabel "x".toList))) :=
  ⟨.semantic rfl rfl rfl, .semantic rfl rfl rfl⟩

/-- Comments of the same length at the same place, which get the same message. -/
example : HasMistake "f".toList ".db ;a".toList (.syntactic (.unexpectedToken ["numeric literal".toList, "string literal".toList]
      (.singleLineComment ";a".toList ⟨"f".toList, 1, 5, 2⟩))) ∧
    HasMistake "f".toList ".db ;b".toList (.syntactic (.unexpectedToken ["numeric literal".toList, "string literal".toList]
      (.singleLineComment ";b".toList ⟨"f".toList, 1, 5, 2⟩))) :=
  ⟨.syntactic rfl rfl, .syntactic rfl rfl⟩

/-- An overlap. -/
example : HasMistake "f".toList ".db 1\n.org 0\n.db 2\n".toList (.overlap [(⟨0, [1]⟩, ⟨0, [2]⟩)]) :=
  .overlap (ranges := [⟨0, [1]⟩, ⟨0, [2]⟩]) rfl rfl rfl (by decide)

/-- C106: the operands in the message about an instruction that there is not are those of the statement. -/
theorem C106_operands (fields fields' : List Field) (h : ∀ f ∈ fields, OperandFormed f) (h' : ∀ f ∈ fields', OperandFormed f)
    (e : shownOperands fields = shownOperands fields') : fields = fields' := operands_unique h h' e

example : (∀ f ∈ [Field.generalPurposeRegister 13, .delayTimer, .numericLiteral 13], OperandFormed f) ∧
    shownOperands [.generalPurposeRegister 13, .delayTimer, .numericLiteral 13] =
      "register:d, register:delay-timer, literal:$d".toList := by
  refine ⟨?_, by decide +kernel⟩
  intro f hf
  simp only [List.mem_cons, List.not_mem_nil, or_false] at hf
  rcases hf with rfl | rfl | rfl
  · show (13 : U8).toNat ≤ 15
    decide
  · trivial
  · trivial

end C8S
