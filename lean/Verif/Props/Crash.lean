import Verif.Proofs.Crash

/- C104: assembling statements that the parser does not produce. -/

namespace C8S

open Spec Instruction

/-- C104: an instruction has exactly one of a word, a failure, and a register that does not exist; and it is in the last
case that the code to emit it panics. -/
theorem C104_instruction (labels : LabelMap) (m : Str) (fields : List Field) :
    ((∃ op, fromMnemonicAndParameters m fields labels = .ok op ∧ intoVec op = .panic) ↔ NoSuchRegister labels m fields) ∧
    ((∃ w, Encodes labels m fields w) ∨ (∃ e, InstructionFails labels m fields e) ∨ NoSuchRegister labels m fields) ∧
    ¬ ((∃ w, Encodes labels m fields w) ∧ NoSuchRegister labels m fields) := by
  refine ⟨⟨?_, noSuchRegister_panic⟩, instruction_cases labels m fields, fun h => encodes_registers h.1.choose_spec h.2⟩
  rintro ⟨op, h, hv⟩
  refine ⟨fun reason hf => ?_, C25_panic_only labels m fields op h hv⟩
  rw [from_error_iff.2 hf] at h
  cases h

/-- Register 16. -/
example : NoSuchRegister [] "ADD".toList [.generalPurposeRegister 16, .generalPurposeRegister 0] :=
  (C104_instruction [] _ _).1.1 ⟨.ADD_REGISTER 16 0, by rfl, by rfl⟩

/-- C104: whatever the statements, assembling them panics exactly if nothing is wrong with them but that the first
instruction without a word has a register that does not exist. -/
theorem C104_panic (nodes : List Node) : assemble nodes = .panic ↔
    ∃ labels pre loc m fields post, Clean nodes ∧ LabelsOf nodes labels ∧ nodes = pre ++ .instruction loc m fields :: post ∧
      (∀ l m f, .instruction l m f ∈ pre → ∃ w, Encodes labels m f w) ∧ NoSuchRegister labels m fields := by
  constructor
  · intro h
    have h0 := h
    unfold assemble at h
    split at h
    · cases h
    · rename_i labels hl
      obtain ⟨hc, hlab⟩ := defineLabels_ok hl
      obtain ⟨pre, loc, m, fields, post, hn, hp, hx⟩ := first_without_word (nodes := nodes) (labels := labels) (fun hall => by
        obtain ⟨ranges, e⟩ := (C34_valid nodes).2 ⟨labels, valid_iff.2 ⟨hc, hlab, hall⟩⟩
        rw [e] at h0
        cases h0)
      refine ⟨labels, pre, loc, m, fields, post, hc, hlab, hn, hp, ?_⟩
      rcases instruction_cases labels m fields with hw | ⟨e, hf⟩ | hr
      · exact absurd hw hx
      · obtain ⟨c, r, he⟩ := emit_at hc hn hp
        rw [h] at he
        simp only [emitLoop, from_error_iff.2 hf] at he
        cases he
      · exact hr
  · rintro ⟨labels, pre, loc, m, fields, post, hc, hlab, hn, hp, hr⟩
    obtain ⟨labels', hl'⟩ := defineLabels_of_clean hc
    have hcongr := labelsOf_congr hlab (defineLabels_ok hl').2
    obtain ⟨op, h1, h2⟩ := noSuchRegister_panic (noSuchRegister_congr hcongr hr)
    obtain ⟨c, r, he⟩ := emit_at (labels := labels') hc hn (fun l m f hm => (hp l m f hm).imp fun _ => encodes_congr hcongr)
    unfold assemble
    simp only [hl', he, emitLoop, h1, h2]

example : assemble [.instruction ⟨[], 1, 1, 1⟩ "cls".toList [], .instruction ⟨[], 2, 1, 1⟩ "add".toList [.generalPurposeRegister 16,
    .generalPurposeRegister 0], .instruction ⟨[], 3, 1, 1⟩ "jp".toList []] = .panic := by rfl

/-- C104: whatever the statements, an error is reported exactly if there is a first statement with a layout fault, or
there is none and the first instruction without a word fails; and it is that fault. -/
theorem C104_error (nodes : List Node) (e : SemanticError) : assemble nodes = .ret (.error e) ↔
      (∃ pre n post, nodes = pre ++ n :: post ∧ Clean pre ∧ Faulty pre n e) ∨
      (∃ labels pre loc m fields post reason, Clean nodes ∧ LabelsOf nodes labels ∧
        nodes = pre ++ .instruction loc m fields :: post ∧
        (∀ l m f, .instruction l m f ∈ pre → ∃ w, Encodes labels m f w) ∧
        InstructionFails labels m fields reason ∧ e = .assemblyFailed loc reason) := by
  constructor
  · intro h
    unfold assemble at h
    split at h
    · rename_i e' he
      cases h
      exact .inl (defineLabels_error_iff.1 he)
    · rename_i labels hl
      obtain ⟨hc, hlab⟩ := defineLabels_ok hl
      have hp := clean_pass2 hc labels
      rw [h] at hp
      cases hp with
      | error hn hpre hf => exact .inr ⟨labels, _, _, _, _, _, _, hc, hlab, hn, hpre, hf, rfl⟩
  · rintro (h | ⟨labels, pre, loc, m, fields, post, reason, hc, hlab, hn, hpre, hf, rfl⟩)
    · unfold assemble
      rw [defineLabels_error_iff.2 h]
    · obtain ⟨labels', hl'⟩ := defineLabels_of_clean hc
      have hcongr := labelsOf_congr hlab (defineLabels_ok hl').2
      obtain ⟨c, r, he⟩ := emit_at (labels := labels') hc hn (fun l m f hm => (hpre l m f hm).imp fun _ => encodes_congr hcongr)
      unfold assemble
      simp only [hl', he, emitLoop, from_error_iff.2 (instructionFails_congr hcongr hf)]

/-- The statement that fails comes before the one with the register, so that there is an error and no panic. -/
example : assemble [.instruction ⟨[], 1, 1, 1⟩ "jp".toList [.identifier "a".toList],
    .instruction ⟨[], 2, 1, 1⟩ "add".toList [.generalPurposeRegister 16, .generalPurposeRegister 0]] =
      .ret (.error (.assemblyFailed ⟨[], 1, 1, 1⟩ (.unableToResolveLabel "a".toList))) := by rfl

end C8S
