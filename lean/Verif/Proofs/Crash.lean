import Verif.Spec.Crash
import Verif.Props.Layout
import Verif.Props.Instruction

/- Lemmas about statements that the parser does not produce. -/

namespace C8S

open Spec Instruction

theorem fitsAll_registers {labels : LabelMap} {v : Vars} {slots : List Slot} {fields : List Field}
    (h : FitsAll labels v slots fields) : FourBitRegisters fields := by
  induction h with
  | nil => intro r hr; cases hr
  | cons hf _ ih =>
    intro r hr
    rcases List.mem_cons.1 hr with e | hr
    · subst e
      cases hf with
      | vx h1 h2 => omega
      | vy h1 h2 => omega
      | v0 => decide
      | nn h1 _ => cases h1
      | n h1 _ => cases h1
      | addr h1 => cases h1
    · exact ih r hr

/-- An instruction is encoded, or fails, or has a register that does not exist. -/
theorem instruction_cases (labels : LabelMap) (m : Str) (fields : List Field) :
    (∃ w, Encodes labels m fields w) ∨ (∃ e, InstructionFails labels m fields e) ∨ NoSuchRegister labels m fields := by
  cases h : fromMnemonicAndParameters m fields labels with
  | error e => exact .inr (.inl ⟨e, from_error_iff.1 h⟩)
  | ok op =>
    cases hv : intoVec op with
    | ret bytes =>
      obtain ⟨hi, lo, rfl, he⟩ := bytes_iff.1 ⟨op, h, hv⟩
      exact .inl ⟨_, he⟩
    | panic =>
      refine .inr (.inr ⟨fun reason hf => ?_, C25_panic_only labels m fields op h hv⟩)
      rw [from_error_iff.2 hf] at h
      cases h

theorem encodes_registers {labels : LabelMap} {m : Str} {fields : List Field} {w : Nat} (h : Encodes labels m fields w) :
    ¬ NoSuchRegister labels m fields := by
  rintro ⟨_, r, hr, hlt⟩
  obtain ⟨row, _, v, _, hf, _⟩ := h
  have := fitsAll_registers hf r hr
  omega

theorem noSuchRegister_panic {labels : LabelMap} {m : Str} {fields : List Field} (h : NoSuchRegister labels m fields) :
    ∃ op, fromMnemonicAndParameters m fields labels = .ok op ∧ intoVec op = .panic := by
  cases hop : fromMnemonicAndParameters m fields labels with
  | error e => exact absurd (from_error_iff.1 hop) (h.1 e)
  | ok op =>
    refine ⟨op, rfl, ?_⟩
    cases hv : intoVec op with
    | panic => rfl
    | ret bytes =>
      obtain ⟨hi, lo, rfl, he⟩ := bytes_iff.1 ⟨op, hop, hv⟩
      exact absurd h (encodes_registers he)

theorem noSuchRegister_congr {labels labels' : LabelMap} (hc : ∀ name, labels.get name = labels'.get name) {m : Str}
    {fields : List Field} (h : NoSuchRegister labels m fields) : NoSuchRegister labels' m fields :=
  ⟨fun reason hf => h.1 reason (instructionFails_congr (fun n => (hc n).symm) hf), h.2⟩

/-- The second pass goes through statements with bytes. -/
theorem emit_prefix (labels : LabelMap) (pre : List Node)
    (hd : ∀ loc name args, .directive loc name args ∈ pre → ∃ d, DirectiveMeans name args d)
    (hi : ∀ l m f, .instruction l m f ∈ pre → ∃ w, Encodes labels m f w)
    (current : DataRange) (ranges : List DataRange)
    (hfit : ∀ p q a, pre = p ++ q → Reaches p (rangeEnd current) a → a ≤ 4096) :
    ∃ c r, ∀ post, emitLoop (pre ++ post) labels current ranges = emitLoop post labels c r := by
  induction pre generalizing current ranges with
  | nil => exact ⟨current, ranges, fun _ => rfl⟩
  | cons n ns ih =>
    have ih := ih (fun l nm a h => hd l nm a (by simp [h])) (fun l nm a h => hi l nm a (by simp [h]))
    have hstep : ∀ {b : Nat}, Moves n (rangeEnd current) b → b ≤ 4096 ∧
        ∀ p q a, ns = p ++ q → Reaches p b a → a ≤ 4096 := by
      intro b hm
      exact ⟨hfit [n] ns b rfl (reaches_single.2 hm),
        fun p q a hns hr => hfit (n :: p) q a (by rw [hns]; rfl) (.cons hm hr)⟩
    obtain ⟨start, data⟩ := current
    cases n with
    | directive loc name args =>
      obtain ⟨d, hmeans⟩ := hd loc name args (by simp)
      simp only [List.cons_append, emitLoop, means_iff.2 hmeans]
      cases d with
      | org v =>
        exact ih _ _ (by simpa [rangeEnd, DataRange.new] using (hstep (.org hmeans)).2)
      | db bytes =>
        obtain ⟨h1, h2⟩ := hstep (.db hmeans)
        have ha : appendAsserted ⟨start, data⟩ (Directive.intoVec (.db bytes)) = .ret ⟨start, data ++ bytes⟩ :=
          appendAsserted_eq h1
        simp only [ha]
        exact ih _ _ (by simpa [rangeEnd, Nat.add_assoc] using h2)
      | equ v =>
        obtain ⟨h1, h2⟩ := hstep (.equ hmeans)
        have ha : appendAsserted ⟨start, data⟩ (Directive.intoVec (.equ v)) = .ret ⟨start, data ++ []⟩ :=
          appendAsserted_eq (by simpa [Directive.intoVec] using h1)
        simp only [ha]
        exact ih _ _ (by simpa [rangeEnd, Nat.add_assoc] using h2)
    | label loc name =>
      simp only [List.cons_append, emitLoop]
      exact ih _ _ (hstep .label).2
    | instruction loc m fields =>
      obtain ⟨w, hw⟩ := hi loc m fields (by simp)
      obtain ⟨hi', lo, rfl⟩ := encodes_bytes hw
      obtain ⟨op, h3, h4⟩ := bytes_iff.2 ⟨hi', lo, rfl, hw⟩
      obtain ⟨h1, h2⟩ := hstep .instruction
      have ha : appendAsserted ⟨start, data⟩ [hi', lo] = .ret ⟨start, data ++ [hi', lo]⟩ :=
        appendAsserted_eq (by simpa using h1)
      simp only [List.cons_append, emitLoop, h3, h4, ha]
      exact ih _ _ (by simpa [rangeEnd, Nat.add_assoc] using h2)

/-- The statements up to an instruction decide what becomes of it. -/
theorem emit_at {nodes pre post : List Node} {loc : Loc} {m : Str} {fields : List Field} {labels : LabelMap} (hc : Clean nodes)
    (hn : nodes = pre ++ .instruction loc m fields :: post) (hi : ∀ l m f, .instruction l m f ∈ pre → ∃ w, Encodes labels m f w) :
    ∃ c r, emitDataRanges nodes labels = emitLoop (.instruction loc m fields :: post) labels c r := by
  subst hn
  obtain ⟨c, r, h⟩ := emit_prefix labels pre (clean_directives (clean_prefix hc)) hi (DataRange.new 0) [] (by
    rintro p q a rfl hr
    rw [List.append_assoc] at hc
    have := clean_fits (clean_prefix hc) (a := a) (by simpa [rangeEnd, DataRange.new] using hr)
    omega)
  exact ⟨c, r, h _⟩

/-- The first instruction without a word. -/
theorem first_without_word {nodes : List Node} {labels : LabelMap}
    (h : ¬ ∀ l m f, .instruction l m f ∈ nodes → ∃ w, Encodes labels m f w) :
    ∃ pre loc m fields post, nodes = pre ++ .instruction loc m fields :: post ∧
      (∀ l m f, .instruction l m f ∈ pre → ∃ w, Encodes labels m f w) ∧ ¬ ∃ w, Encodes labels m fields w := by
  induction nodes with
  | nil => exact absurd (fun _ _ _ hm => absurd hm (by simp)) h
  | cons n ns ih =>
    by_cases hn : ∀ l m f, n = .instruction l m f → ∃ w, Encodes labels m f w
    · obtain ⟨pre, loc, m, fields, post, rfl, hp, hx⟩ := ih (fun hall => h fun l m f hm => by
        rcases List.mem_cons.1 hm with e | hm
        · exact hn l m f e.symm
        · exact hall l m f hm)
      refine ⟨n :: pre, loc, m, fields, post, rfl, fun l m f hm => ?_, hx⟩
      rcases List.mem_cons.1 hm with e | hm
      · exact hn l m f e.symm
      · exact hp l m f hm
    · have : ∃ l m f, n = .instruction l m f ∧ ¬ ∃ w, Encodes labels m f w := by
        refine Classical.byContradiction fun hno => hn fun l m f e => ?_
        exact Classical.byContradiction fun hw => hno ⟨l, m, f, e, hw⟩
      obtain ⟨l, m, f, rfl, hw⟩ := this
      exact ⟨[], l, m, f, ns, rfl, fun _ _ _ hm => absurd hm (by simp), hw⟩

end C8S
