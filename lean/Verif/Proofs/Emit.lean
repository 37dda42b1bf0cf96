import Verif.Proofs.Layout
import Verif.Proofs.DataRange

/- Lemmas on the second pass against the layout specification. -/

namespace C8S

open Spec Instruction

/-! ### Instructions -/

theorem encodes_lt {labels : LabelMap} {m : Str} {fields : List Field} {w : Nat} (h : Encodes labels m fields w) :
    w < 65536 := by
  obtain ⟨row, hr, v, hm, hfit, hy, hw⟩ := h
  obtain ⟨op, h, hwf, hword⟩ := (rowOk_table row hr).2 labels fields v hfit hy
  rw [hw, ← hword]
  exact Opcode.word_lt hwf

theorem encodes_nat_iff {labels : LabelMap} {m : Str} {fields : List Field} {w : Nat} :
    Encodes labels m fields w ↔
      ∃ (op : Opcode) (w' : U16), fromMnemonicAndParameters m fields labels = .ok op ∧ op.asInstruction = .ret w' ∧ w'.toNat = w := by
  constructor
  · intro h
    have e : (BitVec.ofNat 16 w).toNat = w := by
      rw [BitVec.toNat_ofNat, Nat.mod_eq_of_lt (encodes_lt h)]
    obtain ⟨op, h1, h2⟩ := (encodes_iff (w := BitVec.ofNat 16 w)).2 (by rw [e]; exact h)
    exact ⟨op, _, h1, h2, e⟩
  · rintro ⟨op, w', h1, h2, rfl⟩
    exact encodes_iff.1 ⟨op, h1, h2⟩

theorem encodes_unique {labels : LabelMap} {m : Str} {fields : List Field} {w w' : Nat}
    (h : Encodes labels m fields w) (h' : Encodes labels m fields w') : w = w' := by
  obtain ⟨op, v, h1, h2, rfl⟩ := encodes_nat_iff.1 h
  obtain ⟨op', v', h1', h2', rfl⟩ := encodes_nat_iff.1 h'
  rw [h1] at h1'
  injection h1' with e
  subst e
  rw [h2] at h2'
  injection h2' with e
  rw [e]

theorem intoVec_iff {op : Opcode} {bytes : List U8} :
    intoVec op = .ret bytes ↔
      ∃ (w : U16) (hi lo : U8), op.asInstruction = .ret w ∧ bytes = [hi, lo] ∧ w.toNat = hi.toNat * 256 + lo.toNat := by
  unfold intoVec
  cases hw : op.asInstruction with
  | panic => simp
  | ret w =>
    simp only [Run.ret_bind, Run.pure_eq]
    constructor
    · intro h
      injection h with h
      subst h
      refine ⟨w, _, _, rfl, rfl, ?_⟩
      rw [hi8_toNat, lo8_toNat]
      omega
    · rintro ⟨w', hi, lo, e, rfl, hval⟩
      injection e with e
      subst e
      have := lo.isLt
      congr 2
      · apply BitVec.eq_of_toNat_eq
        rw [hi8_toNat]
        omega
      · congr 1
        apply BitVec.eq_of_toNat_eq
        rw [lo8_toNat]
        omega

/-- The bytes of an instruction, both ways. -/
theorem bytes_iff {labels : LabelMap} {m : Str} {fields : List Field} {bytes : List U8} :
    (∃ op, fromMnemonicAndParameters m fields labels = .ok op ∧ intoVec op = .ret bytes) ↔
      ∃ hi lo : U8, bytes = [hi, lo] ∧ Encodes labels m fields (hi.toNat * 256 + lo.toNat) := by
  constructor
  · rintro ⟨op, h1, h2⟩
    obtain ⟨w, hi, lo, h3, rfl, h4⟩ := intoVec_iff.1 h2
    exact ⟨hi, lo, rfl, encodes_nat_iff.2 ⟨op, w, h1, h3, h4⟩⟩
  · rintro ⟨hi, lo, rfl, h⟩
    obtain ⟨op, w, h1, h2, h3⟩ := encodes_nat_iff.1 h
    exact ⟨op, h1, intoVec_iff.2 ⟨w, hi, lo, h2, rfl, h3⟩⟩

/-- A word, as two bytes. -/
theorem encodes_bytes {labels : LabelMap} {m : Str} {fields : List Field} {w : Nat} (h : Encodes labels m fields w) :
    ∃ hi lo : U8, w = hi.toNat * 256 + lo.toNat := by
  have := encodes_lt h
  refine ⟨BitVec.ofNat 8 (w / 256), BitVec.ofNat 8 (w % 256), ?_⟩
  rw [BitVec.toNat_ofNat, BitVec.toNat_ofNat]
  omega

theorem not_encodes_and_fails {labels : LabelMap} {m : Str} {fields : List Field} {w : Nat} {e : InstructionError}
    (h : Encodes labels m fields w) (h' : InstructionFails labels m fields e) : False := by
  obtain ⟨op, _, h1, _⟩ := encodes_nat_iff.1 h
  rw [from_error_iff.2 h'] at h1
  cases h1

theorem fails_unique {labels : LabelMap} {m : Str} {fields : List Field} {e e' : InstructionError}
    (h : InstructionFails labels m fields e) (h' : InstructionFails labels m fields e') : e = e' := by
  have h1 := from_error_iff.2 h
  rw [from_error_iff.2 h'] at h1
  injection h1 with h1
  exact h1.symm

/-- An instruction on the registers the parser produces encodes or fails. -/
theorem encodes_or_fails (labels : LabelMap) (m : Str) (fields : List Field) (hr : FourBitRegisters fields) :
    (∃ w, Encodes labels m fields w) ∨ ∃ e, InstructionFails labels m fields e := by
  cases h : fromMnemonicAndParameters m fields labels with
  | error e => exact .inr ⟨e, from_error_iff.1 h⟩
  | ok op => exact .inl ⟨_, encodes_nat_iff.2 ⟨op, _, h, Opcode.asInstruction_eq (wellFormed_of_ok hr h), rfl⟩⟩

/-! ### Only the values of labels matter -/

section congr

variable {labels labels' : LabelMap} (hl : ∀ name, labels.get name = labels'.get name)

include hl

theorem denotes_congr {f : Field} {n : Nat} (h : Denotes labels f n) : Denotes labels' f n := by
  cases h with
  | literal v => exact .literal v
  | label h => exact .label (by rw [← hl]; exact h)

theorem fits_congr {v : Vars} {s : Slot} {f : Field} (h : Fits labels v s f) : Fits labels' v s f := by
  cases h with
  | vx h1 h2 => exact .vx h1 h2
  | vy h1 h2 => exact .vy h1 h2
  | v0 => exact .v0
  | nn h1 h2 => exact .nn (denotes_congr hl h1) h2
  | n h1 h2 => exact .n (denotes_congr hl h1) h2
  | addr h1 => exact .addr (denotes_congr hl h1)
  | i => exact .i
  | indI => exact .indI
  | dt => exact .dt
  | st => exact .st
  | k => exact .k
  | f => exact .f
  | b => exact .b

theorem fitsAll_congr {v : Vars} {s : List Slot} {f : List Field} (h : FitsAll labels v s f) :
    FitsAll labels' v s f := by
  induction h with
  | nil => exact .nil
  | cons h _ ih => exact .cons (fits_congr hl h) ih

theorem encodes_congr {m : Str} {fields : List Field} {w : Nat} (h : Encodes labels m fields w) :
    Encodes labels' m fields w := by
  obtain ⟨row, hr, v, hm, hfit, hy, hw⟩ := h
  exact ⟨row, hr, v, hm, fitsAll_congr hl hfit, hy, hw⟩

theorem instructionFails_congr {m : Str} {fields : List Field} {e : InstructionError}
    (h : InstructionFails labels m fields e) : InstructionFails labels' m fields e := by
  cases h with
  | unresolved h1 h2 h3 => exact .unresolved h1 h2 (by rw [← hl]; exact h3)
  | eightBit h1 h2 h3 h4 h5 => exact .eightBit h1 h2 h3 (denotes_congr hl h4) h5
  | fourBit h1 h2 h3 h4 h5 => exact .fourBit h1 h2 h3 (denotes_congr hl h4) h5
  | noMatch h => exact .noMatch h

theorem emits_congr {n : Node} {bytes : List U8} (h : Emits labels n bytes) : Emits labels' n bytes := by
  cases h with
  | db h => exact .db h
  | equ h => exact .equ h
  | label => exact .label
  | instruction h => exact .instruction (encodes_congr hl h)

theorem sections_congr {start : U12} {nodes : List Node} {secs : List DataRange}
    (h : Sections labels start nodes secs) : Sections labels' start nodes secs := by
  induction h with
  | nil => exact .nil
  | org h _ ih => exact .org h ih
  | emit h _ ih => exact .emit (emits_congr hl h) ih

end congr

/-! A larger label map keeps what is encoded. -/

section extend

variable {labels labels' : LabelMap} (hl : ∀ name v, labels.get name = some v → labels'.get name = some v)
include hl

theorem denotes_extend {f : Field} {n : Nat} (h : Denotes labels f n) : Denotes labels' f n := by
  cases h with
  | literal v => exact .literal v
  | label h => exact .label (hl _ _ h)

theorem fits_extend {v : Vars} {s : Slot} {f : Field} (h : Fits labels v s f) : Fits labels' v s f := by
  cases h with
  | vx h1 h2 => exact .vx h1 h2
  | vy h1 h2 => exact .vy h1 h2
  | v0 => exact .v0
  | nn h1 h2 => exact .nn (denotes_extend hl h1) h2
  | n h1 h2 => exact .n (denotes_extend hl h1) h2
  | addr h1 => exact .addr (denotes_extend hl h1)
  | i => exact .i
  | indI => exact .indI
  | dt => exact .dt
  | st => exact .st
  | k => exact .k
  | f => exact .f
  | b => exact .b

theorem fitsAll_extend {v : Vars} {s : List Slot} {f : List Field} (h : FitsAll labels v s f) :
    FitsAll labels' v s f := by
  induction h with
  | nil => exact .nil
  | cons h _ ih => exact .cons (fits_extend hl h) ih

theorem encodes_extend {m : Str} {fields : List Field} {w : Nat} (h : Encodes labels m fields w) :
    Encodes labels' m fields w := by
  obtain ⟨row, hr, v, hm, hfit, hy, hw⟩ := h
  exact ⟨row, hr, v, hm, fitsAll_extend hl hfit, hy, hw⟩

theorem sections_extend {start : U12} {nodes : List Node} {secs : List DataRange}
    (h : Sections labels start nodes secs) : Sections labels' start nodes secs := by
  induction h with
  | nil => exact .nil
  | org h _ ih => exact .org h ih
  | emit h _ ih =>
    refine .emit ?_ ih
    cases h with
    | db h => exact .db h
    | equ h => exact .equ h
    | label => exact .label
    | instruction h => exact .instruction (encodes_extend hl h)

end extend

theorem labelsOf_congr {nodes : List Node} {labels labels' : LabelMap} (h : LabelsOf nodes labels)
    (h' : LabelsOf nodes labels') (name : Str) : labels.get name = labels'.get name := by
  cases hg : labels.get name with
  | some v => exact ((h' name v).2 ((h name v).1 hg)).symm
  | none =>
    cases hg' : labels'.get name with
    | none => rfl
    | some v =>
      have := (h name v).2 ((h' name v).1 hg')
      rw [hg] at this
      exact this

/-! ### Bytes and sections -/

theorem emits_moves {labels : LabelMap} {n : Node} {bytes : List U8} (h : Emits labels n bytes) (a : Nat) :
    Moves n a (a + bytes.length) := by
  cases h with
  | db h => exact .db h
  | equ h => exact .equ h
  | label => exact .label
  | instruction h => exact .instruction

theorem emits_not_org {labels : LabelMap} {loc : Loc} {name : Str} {args : List Literal} {bytes : List U8} {v : U12}
    (h : Emits labels (.directive loc name args) bytes) (h' : DirectiveMeans name args (.org v)) : False := by
  cases h with
  | db h => cases means_unique h h'
  | equ h => cases means_unique h h'

theorem emits_unique {labels : LabelMap} {n : Node} {bytes bytes' : List U8} (h : Emits labels n bytes)
    (h' : Emits labels n bytes') : bytes = bytes' := by
  cases h with
  | db h => cases h' with
    | db h' => cases means_unique h h'; rfl
    | equ h' => cases means_unique h h'
  | equ h => cases h' with
    | db h' => cases means_unique h h'
    | equ h' => rfl
  | label => cases h'; rfl
  | @instruction _ _ _ hi lo h => cases h' with
    | @instruction _ _ _ hi' lo' h' =>
      have := encodes_unique h h'
      have := hi.isLt
      have := lo.isLt
      have := hi'.isLt
      have := lo'.isLt
      rw [BitVec.eq_of_toNat_eq (show hi.toNat = hi'.toNat by omega),
        BitVec.eq_of_toNat_eq (show lo.toNat = lo'.toNat by omega)]

theorem sections_head {labels : LabelMap} {start : U12} {nodes : List Node} {secs : List DataRange}
    (h : Sections labels start nodes secs) : ∃ data rest, secs = ⟨start, data⟩ :: rest := by
  cases h with
  | nil => exact ⟨_, _, rfl⟩
  | org _ _ => exact ⟨_, _, rfl⟩
  | emit _ _ => exact ⟨_, _, rfl⟩

theorem sections_unique {labels : LabelMap} {start : U12} {nodes : List Node} {secs secs' : List DataRange}
    (h : Sections labels start nodes secs) (h' : Sections labels start nodes secs') : secs = secs' := by
  induction h generalizing secs' with
  | nil => cases h'; rfl
  | org h _ ih =>
    cases h' with
    | org h2 h' => cases means_unique h h2; rw [ih h']
    | emit h2 h' => exact (emits_not_org h2 h).elim
  | emit h _ ih =>
    cases h' with
    | org h2 h' => exact (emits_not_org h h2).elim
    | emit h2 h' =>
      cases emits_unique h h2
      cases ih h'
      rfl

/-- The statements for which sections exist. -/
theorem sections_exist {labels : LabelMap} (nodes : List Node)
    (hd : ∀ loc name args, .directive loc name args ∈ nodes → ∃ d, DirectiveMeans name args d)
    (hi : ∀ loc m fields, .instruction loc m fields ∈ nodes → ∃ w, Encodes labels m fields w) (start : U12) :
    ∃ secs, Sections labels start nodes secs := by
  induction nodes generalizing start with
  | nil => exact ⟨_, .nil⟩
  | cons n ns ih =>
    have ih := ih (fun l nm a h => hd l nm a (by simp [h])) (fun l m f h => hi l m f (by simp [h]))
    have emit : ∀ {bytes}, Emits labels n bytes → ∃ secs, Sections labels start (n :: ns) secs := by
      intro bytes he
      obtain ⟨secs, hs⟩ := ih start
      obtain ⟨data, rest, rfl⟩ := sections_head hs
      exact ⟨_, .emit he hs⟩
    cases n with
    | directive loc name args =>
      obtain ⟨d, hd⟩ := hd loc name args (by simp)
      cases d with
      | org v =>
        obtain ⟨secs, hs⟩ := ih v
        exact ⟨_, .org hd hs⟩
      | db bytes => exact emit (.db hd)
      | equ v => exact emit (.equ hd)
    | label loc name => exact emit .label
    | instruction loc m fields =>
      obtain ⟨w, hw⟩ := hi loc m fields (by simp)
      obtain ⟨hi, lo, rfl⟩ := encodes_bytes hw
      exact emit (.instruction hw)

theorem sections_instructions {labels : LabelMap} {start : U12} {nodes : List Node} {secs : List DataRange}
    (h : Sections labels start nodes secs) :
    ∀ loc m fields, .instruction loc m fields ∈ nodes → ∃ w, Encodes labels m fields w := by
  intro loc m fields
  induction h with
  | nil => intro hm; cases hm
  | org _ _ ih =>
    intro hm
    rcases List.mem_cons.1 hm with h | h
    · cases h
    · exact ih h
  | emit he _ ih =>
    intro hm
    rcases List.mem_cons.1 hm with h | h
    · subst h
      cases he with
      | instruction h => exact ⟨_, h⟩
    · exact ih h

/-! ### The loop of the second pass -/

/-- The sections that hold bytes. -/
def nonEmpty (secs : List DataRange) : List DataRange := secs.filter fun r => decide (r.data ≠ [])

theorem keep_eq (current : DataRange) (ranges : List DataRange) :
    (if current.len > 0 then ranges ++ [current] else ranges) = ranges ++ nonEmpty [current] := by
  have : current.len > 0 ↔ current.data ≠ [] := by
    rw [DataRange.len, gt_iff_lt, List.length_pos_iff]
  by_cases h : current.data = []
  · rw [if_neg (by rw [this]; simp [h])]
    simp [nonEmpty, h]
  · rw [if_pos (this.2 h)]
    simp [nonEmpty, h]

theorem nonEmpty_cons (r : DataRange) (secs : List DataRange) : nonEmpty (r :: secs) = nonEmpty [r] ++ nonEmpty secs := by
  simp only [nonEmpty, List.filter_cons, List.filter_nil]
  split <;> simp

theorem appendAsserted_eq {r : DataRange} {bytes : List U8} (h : rangeEnd r + bytes.length ≤ 4096) :
    appendAsserted r bytes = .ret ⟨r.startAddress, r.data ++ bytes⟩ := by
  have hm : InMemory r := by simp only [InMemory, memorySize]; omega
  unfold appendAsserted
  rw [append_eq hm, if_pos (show _ ≤ memorySize from h)]

/-- What the second pass computes. -/
inductive Pass2 (labels : LabelMap) (nodes : List Node) (current : DataRange) (ranges : List DataRange) :
    Run (Except SemanticError (List DataRange)) → Prop where
  | ok {data : List U8} {secs : List DataRange} :
    Sections labels current.startAddress nodes (⟨current.startAddress, data⟩ :: secs) →
    Pass2 labels nodes current ranges
      (.ret (.ok (ranges ++ nonEmpty (⟨current.startAddress, current.data ++ data⟩ :: secs))))
  | error {pre post : List Node} {loc : Loc} {m : Str} {fields : List Field} {reason : InstructionError} :
    nodes = pre ++ .instruction loc m fields :: post →
    (∀ l m f, .instruction l m f ∈ pre → ∃ w, Encodes labels m f w) →
    InstructionFails labels m fields reason →
    Pass2 labels nodes current ranges (.ret (.error (.assemblyFailed loc reason)))
  | panic {loc : Loc} {m : Str} {fields : List Field} {op : Opcode} : .instruction loc m fields ∈ nodes →
    fromMnemonicAndParameters m fields labels = .ok op → intoVec op = .panic →
    Pass2 labels nodes current ranges .panic

/-- One statement other than `.org`. -/
theorem Pass2.step {labels : LabelMap} {n : Node} {ns : List Node} {start : U12} {data bytes : List U8}
    {ranges : List DataRange} {r : Run (Except SemanticError (List DataRange))} (he : Emits labels n bytes)
    (h : Pass2 labels ns ⟨start, data ++ bytes⟩ ranges r) : Pass2 labels (n :: ns) ⟨start, data⟩ ranges r := by
  cases h with
  | @ok d secs hs =>
    have := Pass2.ok (labels := labels) (nodes := n :: ns) (current := ⟨start, data⟩) (ranges := ranges)
      (.emit he hs)
    simpa [List.append_assoc] using this
  | @error pre post loc m fields reason hn hp hf =>
    refine .error (pre := n :: pre) (post := post) (by rw [hn]; rfl) ?_ hf
    intro l m f hm
    rcases List.mem_cons.1 hm with h | h
    · subst h
      cases he with
      | instruction h => exact ⟨_, h⟩
    · exact hp l m f h
  | panic hm h1 h2 => exact .panic (List.mem_cons_of_mem _ hm) h1 h2

theorem pass2_loop (labels : LabelMap) (nodes : List Node)
    (hd : ∀ loc name args, .directive loc name args ∈ nodes → ∃ d, DirectiveMeans name args d)
    (current : DataRange) (ranges : List DataRange)
    (hfit : ∀ pre post a, nodes = pre ++ post → Reaches pre (rangeEnd current) a → a ≤ 4096) :
    Pass2 labels nodes current ranges (emitLoop nodes labels current ranges) := by
  induction nodes generalizing current ranges with
  | nil =>
    simp only [emitLoop, keep_eq]
    have := Pass2.ok (labels := labels) (nodes := []) (current := current) (ranges := ranges) .nil
    simpa using this
  | cons n ns ih =>
    have ih := ih (fun l nm a h => hd l nm a (by simp [h]))
    have hstep : ∀ {b : Nat}, Moves n (rangeEnd current) b → b ≤ 4096 ∧
        ∀ pre post a, ns = pre ++ post → Reaches pre b a → a ≤ 4096 := by
      intro b hm
      exact ⟨hfit [n] ns b rfl (reaches_single.2 hm),
        fun pre post a hns hr => hfit (n :: pre) post a (by rw [hns]; rfl) (.cons hm hr)⟩
    obtain ⟨start, data⟩ := current
    cases n with
    | directive loc name args =>
      obtain ⟨d, hmeans⟩ := hd loc name args (by simp)
      simp only [emitLoop, means_iff.2 hmeans]
      cases d with
      | org v =>
        obtain ⟨_, h2⟩ := hstep (.org hmeans)
        have hr := ih (DataRange.new v) (ranges ++ nonEmpty [⟨start, data⟩]) (by
          simpa [rangeEnd, DataRange.new] using h2)
        simp only [keep_eq]
        generalize emitLoop ns labels (DataRange.new v) (ranges ++ nonEmpty [⟨start, data⟩]) = r at hr
        cases hr with
        | @ok d secs hs =>
          have := Pass2.ok (labels := labels) (nodes := .directive loc name args :: ns)
            (current := ⟨start, data⟩) (ranges := ranges) (.org hmeans hs)
          simp only [DataRange.new, List.append_assoc, List.nil_append, List.append_nil] at this ⊢
          rw [nonEmpty_cons] at this
          exact this
        | @error pre post loc' m fields reason hn hp hf =>
          refine .error (pre := .directive loc name args :: pre) (post := post) (by rw [hn]; rfl) ?_ hf
          intro l m f hm
          rcases List.mem_cons.1 hm with h | h
          · cases h
          · exact hp l m f h
        | panic hm h1 h2 => exact .panic (List.mem_cons_of_mem _ hm) h1 h2
      | db bytes =>
        obtain ⟨h1, h2⟩ := hstep (.db hmeans)
        have ha : appendAsserted ⟨start, data⟩ (Directive.intoVec (.db bytes)) = .ret ⟨start, data ++ bytes⟩ :=
          appendAsserted_eq h1
        simp only [ha]
        refine .step (.db hmeans) (ih _ _ ?_)
        simpa [rangeEnd, Nat.add_assoc] using h2
      | equ v =>
        obtain ⟨h1, h2⟩ := hstep (.equ hmeans)
        have ha : appendAsserted ⟨start, data⟩ (Directive.intoVec (.equ v)) = .ret ⟨start, data ++ []⟩ :=
          appendAsserted_eq (by simpa [Directive.intoVec] using h1)
        simp only [ha]
        refine .step (.equ hmeans) (ih _ _ ?_)
        simpa [rangeEnd, Nat.add_assoc] using h2
    | label loc name =>
      simp only [emitLoop]
      have := ih ⟨start, data ++ []⟩ ranges (by simpa [rangeEnd] using (hstep .label).2)
      rw [List.append_nil] at this
      exact .step .label (by rw [List.append_nil]; exact this)
    | instruction loc m fields =>
      simp only [emitLoop]
      cases hop : fromMnemonicAndParameters m fields labels with
      | error reason =>
        exact .error (pre := []) rfl (by intro l m f hm; cases hm) (from_error_iff.1 hop)
      | ok op =>
        simp only []
        cases hv : intoVec op with
        | panic => exact .panic List.mem_cons_self hop hv
        | ret bytes =>
          simp only []
          obtain ⟨hi, lo, rfl, he⟩ := bytes_iff.1 ⟨op, hop, hv⟩
          obtain ⟨h1, h2⟩ := hstep .instruction
          have ha : appendAsserted ⟨start, data⟩ [hi, lo] = .ret ⟨start, data ++ [hi, lo]⟩ :=
            appendAsserted_eq (by simpa using h1)
          simp only [ha]
          refine .step (.instruction he) (ih _ _ ?_)
          simpa [rangeEnd, Nat.add_assoc] using h2

/-! ### Both passes -/

theorem clean_directives {nodes : List Node} (h : Clean nodes) :
    ∀ loc name args, .directive loc name args ∈ nodes → ∃ d, DirectiveMeans name args d := by
  intro loc name args hm
  obtain ⟨p, q, rfl⟩ := List.append_of_mem hm
  rcases directive_total name args with h' | ⟨e, he⟩
  · exact h'
  · exact absurd (.invalid he) (h p _ q rfl _)

theorem clean_pass2 {nodes : List Node} (h : Clean nodes) (labels : LabelMap) :
    Pass2 labels nodes (DataRange.new 0) [] (emitDataRanges nodes labels) := by
  refine pass2_loop labels nodes (clean_directives h) _ _ ?_
  rintro pre post a rfl hr
  have := clean_fits (clean_prefix h) (a := a) (by simpa [rangeEnd, DataRange.new] using hr)
  omega

/-- What the assembler computes: exact conditions for success, and its result. -/
theorem assemble_ok_iff {nodes : List Node} {ranges : List DataRange} :
    assemble nodes = .ret (.ok ranges) ↔
      ∃ labels secs, Clean nodes ∧ LabelsOf nodes labels ∧ Sections labels 0 nodes secs ∧ ranges = nonEmpty secs := by
  constructor
  · intro h
    unfold assemble at h
    split at h
    · cases h
    · rename_i labels hl
      obtain ⟨hc, hlab⟩ := defineLabels_ok hl
      have hp := clean_pass2 hc labels
      rw [h] at hp
      cases hp with
      | ok hs => exact ⟨labels, _, hc, hlab, hs, by simp [DataRange.new]⟩
  · rintro ⟨labels, secs, hc, hlab, hs, rfl⟩
    obtain ⟨labels', hl'⟩ := defineLabels_of_clean hc
    have hlab' := (defineLabels_ok hl').2
    have hs := sections_congr (labelsOf_congr hlab hlab') hs
    have hp := clean_pass2 hc labels'
    unfold assemble
    rw [hl']
    simp only []
    generalize emitDataRanges nodes labels' = r at hp
    cases hp with
    | ok hs' =>
      rw [sections_unique hs hs']
      simp [DataRange.new]
    | @error _ _ loc m fields _ hn hpre hf =>
      obtain ⟨w, hw⟩ := sections_instructions hs loc m fields (by rw [hn]; simp)
      exact (not_encodes_and_fails hw hf).elim
    | panic hm h1 h2 =>
      obtain ⟨w, hw⟩ := sections_instructions hs _ _ _ hm
      obtain ⟨hi, lo, rfl⟩ := encodes_bytes hw
      obtain ⟨op, h3, h4⟩ := bytes_iff.2 ⟨hi, lo, rfl, hw⟩
      rw [h1] at h3
      injection h3 with h3
      subst h3
      rw [h2] at h4
      cases h4

/-- Failures of the assembler: of the first pass, or of the first instruction that does not assemble. -/
theorem assemble_error_iff {nodes : List Node} {e : SemanticError} (hr : FourBitProgram nodes) :
    assemble nodes = .ret (.error e) ↔
      (∃ pre n post, nodes = pre ++ n :: post ∧ Clean pre ∧ Faulty pre n e) ∨
      (∃ labels pre loc m fields post reason, Clean nodes ∧ LabelsOf nodes labels ∧
        nodes = pre ++ .instruction loc m fields :: post ∧
        (∀ l m f, .instruction l m f ∈ pre → ∃ w, Encodes labels m f w) ∧
        InstructionFails labels m fields reason ∧ e = .assemblyFailed loc reason) := by
  constructor
  · intro h
    unfold assemble at h
    split at h
    · rename_i e' he
      injection h with h
      injection h with h
      subst h
      exact .inl (defineLabels_error_iff.1 he)
    · rename_i labels hl
      obtain ⟨hc, hlab⟩ := defineLabels_ok hl
      have hp := clean_pass2 hc labels
      rw [h] at hp
      cases hp with
      | error hn hpre hf => exact .inr ⟨labels, _, _, _, _, _, _, hc, hlab, hn, hpre, hf, rfl⟩
  · rintro (h | ⟨labels, pre, loc, m, fields, post, reason, hc, hlab, rfl, hpre, hf, rfl⟩)
    · unfold assemble
      rw [defineLabels_error_iff.2 h]
    · obtain ⟨labels', hl'⟩ := defineLabels_of_clean hc
      have hcongr := labelsOf_congr hlab (defineLabels_ok hl').2
      have hf := instructionFails_congr hcongr hf
      have hp := clean_pass2 hc labels'
      unfold assemble
      rw [hl']
      simp only []
      generalize emitDataRanges _ labels' = r at hp
      cases hp with
      | ok hs' =>
        obtain ⟨w, hw⟩ := sections_instructions hs' loc m fields (by simp)
        exact (not_encodes_and_fails hw hf).elim
      | @error pre' post' loc' m' fields' reason' hn hpre' hf' =>
        rcases List.append_eq_append_iff.1 hn with ⟨r, rfl, hq⟩ | ⟨r, rfl, hq⟩
        · cases r with
          | nil =>
            simp at hq
            obtain ⟨⟨rfl, rfl, rfl⟩, rfl⟩ := hq
            rw [fails_unique hf hf']
          | cons x r =>
            simp at hq
            obtain ⟨rfl, rfl⟩ := hq
            obtain ⟨w, hw⟩ := hpre' loc m fields (by simp)
            exact (not_encodes_and_fails hw hf).elim
        · cases r with
          | nil =>
            simp at hq
            obtain ⟨⟨rfl, rfl, rfl⟩, rfl⟩ := hq
            rw [fails_unique hf hf']
          | cons x r =>
            simp at hq
            obtain ⟨rfl, rfl⟩ := hq
            obtain ⟨w, hw⟩ := hpre loc' m' fields' (by simp)
            exact (not_encodes_and_fails (encodes_congr hcongr hw) hf').elim
      | panic hm h1 h2 =>
        have hw := Opcode.asInstruction_eq (wellFormed_of_ok (hr _ _ _ hm) h1)
        simp [intoVec, hw] at h2

/-- The assembler does not panic on what the parser produces. -/
theorem assemble_no_panic {nodes : List Node} (hr : FourBitProgram nodes) : assemble nodes ≠ .panic := by
  intro h
  unfold assemble at h
  split at h
  · cases h
  · rename_i labels hl
    obtain ⟨hc, hlab⟩ := defineLabels_ok hl
    have hp := clean_pass2 hc labels
    rw [h] at hp
    cases hp with
    | panic hm h1 h2 =>
      have hw := Opcode.asInstruction_eq (wellFormed_of_ok (hr _ _ _ hm) h1)
      simp [intoVec, hw] at h2

end C8S
