import Verif.Spec.Flow
import Verif.Proofs.Aliases
import Verif.Proofs.Rewrite
import Verif.Props.Provenance

/- Lemmas on the order of execution. -/

namespace C8S

open Spec

theorem take_succ_get {α : Type} {l : List α} {i : Nat} {x : α} (h : l[i]? = some x) : l.take (i + 1) = l.take i ++ [x] := by
  rw [List.take_add_one, h]
  rfl

theorem split_get {α : Type} {l : List α} {i : Nat} {x : α} (h : l[i]? = some x) :
    l = l.take i ++ x :: l.drop (i + 1) ∧ (l.take i).length = i := by
  obtain ⟨hi, hx⟩ := List.getElem?_eq_some_iff.1 h
  refine ⟨?_, by simp; omega⟩
  rw [← hx, List.getElem_cons_drop, List.take_append_drop]

theorem lands_instruction {nodes : List Node} {i j : Nat} (h : Lands nodes i j) :
    ∃ loc m fs, nodes[j]? = some (.instruction loc m fs) := by
  induction h with
  | here h => exact ⟨_, _, _, h⟩
  | label _ _ ih => exact ih
  | constant _ _ _ ih => exact ih

theorem lands_reaches {nodes : List Node} {i j a : Nat} (h : Lands nodes i j) (hr : Reaches (nodes.take i) 0 a) :
    InstructionAt nodes j a := by
  induction h with
  | here h => exact ⟨⟨_, _, _, h⟩, hr⟩
  | label h _ ih =>
    refine ih ?_
    rw [take_succ_get h]
    exact reaches_snoc hr .label
  | constant h hm _ ih =>
    refine ih ?_
    rw [take_succ_get h]
    exact reaches_snoc hr (.equ hm)

theorem instructionAt_next {nodes : List Node} {i a : Nat} (h : InstructionAt nodes i a) :
    Reaches (nodes.take (i + 1)) 0 (a + 2) := by
  obtain ⟨⟨loc, m, fs, hi⟩, hr⟩ := h
  rw [take_succ_get hi]
  exact reaches_snoc hr .instruction

theorem inline_single {L : LabelMap} {fs : List Field} {x : Field} (h : [x] = fs.map (inlineField L)) :
    ∃ f, fs = [f] ∧ x = inlineField L f := by
  match fs, h with
  | [f], h => exact ⟨f, rfl, by simpa using h⟩

theorem fetches_ret {mem : List (Nat × U8)} {a : Nat} {fs : List Field} (hf : Fetches mem a ("ret".toList, fs)) : fs = [] := by
  obtain ⟨hi, lo, _, _, _, row, hrow, v, e1, e2, _⟩ := hf
  have e3 : row.slots = [] := by
    have : toLowercase "ret".toList = row.mnemonic := by
      rw [← row_lower row hrow]; exact (toLowercase_eq_iff _ _).2 e1
    have hd : ∀ r ∈ table, toLowercase "ret".toList = r.mnemonic → r.slots = [] := by decide +kernel
    exact hd row hrow this
  rw [e3] at e2
  cases e2
  rfl

theorem instruction_spells {nodes : List Node} {ranges : List DataRange} (ha : assemble nodes = .ret (.ok ranges)) {i a : Nat}
    (hi : InstructionAt nodes i a) : ∃ op, Spells nodes i op := by
  obtain ⟨L, hv⟩ := (C34_valid nodes).1 ⟨ranges, ha⟩
  obtain ⟨⟨loc, m, fs, hi⟩, _⟩ := hi
  obtain ⟨w, row, hrow, v, e1, _⟩ := hv.instructions loc m fs (List.mem_of_getElem? hi)
  exact ⟨(row.mnemonic, fs.map (inlineField L)), L, loc, m, fs, hv.labelValues, hi, ⟨row, hrow, rfl⟩, e1, rfl⟩

section
variable {nodes : List Node} {ranges : List DataRange} {labels : LabelMap}

/-- What the memory holds where an instruction is placed. -/
theorem bytes_at (ha : assemble nodes = .ret (.ok ranges)) (hl : LabelsOf nodes labels) {i a : Nat} {loc : Loc} {m : Str}
    {fs : List Field} (hi : nodes[i]? = some (.instruction loc m fs)) (hr : Reaches (nodes.take i) 0 a) :
    ∃ hi lo : U8, (a, hi) ∈ image ranges ∧ (a + 1, lo) ∈ image ranges ∧ Puts labels nodes i a hi ∧
      Puts labels nodes i (a + 1) lo ∧ Encodes labels m fs (hi.toNat * 256 + lo.toNat) := by
  obtain ⟨L, hv⟩ := (C34_valid nodes).1 ⟨ranges, ha⟩
  obtain ⟨w, hw⟩ := hv.instructions loc m fs (List.mem_of_getElem? hi)
  have hw : Encodes labels m fs w := encodes_congr (labelsOf_congr hv.labelValues hl) hw
  obtain ⟨b, c, rfl⟩ := encodes_bytes hw
  obtain ⟨h1, h2⟩ := split_get hi
  have p1 : Puts labels nodes i a b :=
    ⟨nodes.take i, _, nodes.drop (i + 1), a, [b, c], h1, h2, hr, .instruction hw, Nat.le_refl a, by simp⟩
  have p2 : Puts labels nodes i (a + 1) c :=
    ⟨nodes.take i, _, nodes.drop (i + 1), a, [b, c], h1, h2, hr, .instruction hw, by omega, by
      have : a + 1 - a = 1 := by omega
      rw [this]; rfl⟩
  exact ⟨b, c, (C91_bytes nodes ranges labels ha hl a b).2 ⟨i, p1⟩, (C91_bytes nodes ranges labels ha hl (a + 1) c).2 ⟨i, p2⟩,
    p1, p2, hw⟩

theorem spells_fetches (ha : assemble nodes = .ret (.ok ranges)) {i a : Nat} {op : Operation} (hs : Spells nodes i op)
    (hr : Reaches (nodes.take i) 0 a) : Fetches (image ranges) a op := by
  obtain ⟨L, loc, m, fs, hl, hi, hm, hw, ho⟩ := hs
  obtain ⟨b, c, h1, h2, _, _, he⟩ := bytes_at ha hl hi hr
  refine ⟨b, c, h1, h2, hm, ?_⟩
  rw [ho]
  obtain ⟨row, hrow, v, e1, e2, e3, e4⟩ := encodes_inline (L' := []) he
  exact ⟨row, hrow, v, hw.symm.trans e1, e2, e3, e4⟩

theorem sameOperand_inline {f g : Field} (h : SameOperand labels [] f g) : g = inlineField labels f := by
  cases h with
  | value d d' =>
    cases d' with
    | literal v =>
      generalize hn : v.toNat = n at d
      cases d with
      | literal w => rw [BitVec.eq_of_toNat_eq hn]; rfl
      | label hg =>
        simp only [inlineField, hg]
        rw [BitVec.eq_of_toNat_eq hn]
    | label h => cases h
  | register h1 h2 =>
    cases f with
    | identifier s => exact (h2 s rfl).elim
    | _ => rfl

theorem sameOperands_inline {fs gs : List Field} (h : SameOperands labels [] fs gs) : gs = fs.map (inlineField labels) := by
  induction fs generalizing gs with
  | nil => cases h; rfl
  | cons f fs ih =>
    cases h with
    | cons h1 h2 => rw [sameOperand_inline h1, ih h2]; rfl

theorem fetches_spells (ha : assemble nodes = .ret (.ok ranges)) (ho : findOverlappingRanges ranges = []) {i a : Nat}
    {op : Operation} (hi : InstructionAt nodes i a) (hf : Fetches (image ranges) a op) : Spells nodes i op := by
  obtain ⟨L, hl, _⟩ := C33_labels nodes ranges ha
  obtain ⟨⟨loc, m, fs, hi⟩, hr⟩ := hi
  obtain ⟨b, c, h1, h2, p1, p2, he⟩ := bytes_at ha hl hi hr
  obtain ⟨b', c', h1', h2', hm, he'⟩ := hf
  obtain ⟨k, _, u1⟩ := C91_unique nodes ranges L ha hl ho a b h1
  obtain ⟨k', _, u2⟩ := C91_unique nodes ranges L ha hl ho (a + 1) c h2
  obtain ⟨j, q1⟩ := (C91_bytes nodes ranges L ha hl a b').1 h1'
  obtain ⟨j', q2⟩ := (C91_bytes nodes ranges L ha hl (a + 1) c').1 h2'
  obtain rfl : b' = b := (u1 j b' q1).2
  obtain rfl : c' = c := (u2 j' c' q2).2
  have hlt := encodes_lt he
  have hw : b'.toNat * 256 + c'.toNat = (BitVec.ofNat 16 (b'.toNat * 256 + c'.toNat)).toNat := by
    rw [BitVec.toNat_ofNat]; omega
  rw [hw] at he he'
  obtain ⟨s1, s2⟩ := encodes_same he he'
  exact ⟨L, loc, m, fs, hl, hi, hm, s1, sameOperands_inline s2⟩

theorem spells_unique {i : Nat} {op op' : Operation} (h : Spells nodes i op)
    (h' : Spells nodes i op') : op.2 = op'.2 := by
  obtain ⟨L, _, _, _, hl, hi, _, _, ho⟩ := h
  obtain ⟨L', _, _, _, hl', hi', _, _, ho'⟩ := h'
  rw [hi] at hi'
  cases hi'
  rw [ho, ho']
  apply List.map_congr_left
  intro f _
  cases f with
  | identifier name =>
    have : L.get name = L'.get name := by
      cases h1 : L.get name with
      | some v => rw [(hl' name v).2 ((hl name v).1 h1)]
      | none =>
        cases h2 : L'.get name with
        | none => rfl
        | some v => rw [(hl name v).2 ((hl' name v).1 h2)] at h1; cases h1
    simp only [inlineField, this]
  | _ => rfl

/-- The value of a label is the address of the instruction after it. -/
theorem marks_address (ha : assemble nodes = .ret (.ok ranges)) {L : LabelMap} (hl : LabelsOf nodes L) {name : Str}
    {d j : Nat} (hm : Marks nodes name d) (hland : Lands nodes d j) :
    ∃ v : U12, inlineField L (.identifier name) = .numericLiteral v ∧ InstructionAt nodes j v.toNat := by
  obtain ⟨L', hv⟩ := (C34_valid nodes).1 ⟨ranges, ha⟩
  obtain ⟨⟨locd, hd⟩, hc⟩ := hm
  obtain ⟨h1, h2⟩ := split_get hd
  have hdo : DirectivesOk (nodes.take d) := fun l n x h => hv.directives l n x (List.mem_of_mem_take h)
  obtain ⟨a, hr⟩ := reaches_exists hdo 0
  have hle := hv.fits (nodes.take d) _ a h1 hr
  have hv' : (BitVec.ofNat 12 a).toNat = a := by rw [BitVec.toNat_ofNat]; omega
  have hval : LabelValue nodes name (BitVec.ofNat 12 a) := by
    rw [h1]
    exact .address hc (by rw [hv']; exact hr)
  have hg := (hl name _).2 hval
  refine ⟨BitVec.ofNat 12 a, by simp only [inlineField, hg], ?_⟩
  rw [hv']
  exact lands_reaches hland hr

/-- The operand of a jump is the address of the instruction jumped to. -/
theorem targets_address (ha : assemble nodes = .ret (.ok ranges)) {i j : Nat} {op : Operation} (hs : Spells nodes i op)
    (ht : Targets nodes i j) : ∃ v : U12, op.2 = [.numericLiteral v] ∧ InstructionAt nodes j v.toNat := by
  rcases ht with ⟨loc', m', name, d, hi', hm, hland⟩ | ⟨op', v, hs', hv, hj⟩
  · obtain ⟨L', loc, m, fs, hl, hi, _, hw, ho⟩ := hs
    rw [hi] at hi'
    cases hi'
    obtain ⟨v, h1, h2⟩ := marks_address ha hl hm hland
    exact ⟨v, by rw [ho, ← h1]; rfl, h2⟩
  · exact ⟨v, (spells_unique hs hs').trans hv, hj⟩

theorem further_address {n i j a : Nat} (h : Further nodes n i j) (hi : InstructionAt nodes i a) :
    InstructionAt nodes j (a + 2 * n) := by
  induction h generalizing a with
  | here => exact hi
  | @next n i j k h1 _ ih =>
    have := ih (lands_reaches h1 (instructionAt_next hi))
    rwa [show a + 2 + 2 * n = a + 2 * (n + 1) by omega] at this

/-- The same for a jump by `V0`. -/
theorem targetsV0_address (ha : assemble nodes = .ret (.ok ranges)) {i j x : Nat} {op : Operation} (hs : Spells nodes i op)
    (ht : TargetsV0 nodes i x j) :
    ∃ (f : Field) (v : U12), op.2 = [f, .numericLiteral v] ∧ InstructionAt nodes j (v.toNat + x) := by
  rcases ht with ⟨loc', m', f, name, d, n, k, hi', hm, hland, rfl, hfur⟩ | ⟨op', f, v, hs', hv, hj⟩
  · obtain ⟨L', loc, m, fs, hl, hi, _, hw, ho⟩ := hs
    rw [hi] at hi'
    cases hi'
    obtain ⟨v, h1, h2⟩ := marks_address ha hl hm hland
    exact ⟨inlineField L' f, v, by rw [ho, ← h1]; rfl, further_address hfur h2⟩
  · exact ⟨f, v, (spells_unique hs hs').trans hv, hj⟩

theorem fetches_row {mem : List (Nat × U8)} {a : Nat} {op : Operation} (hf : Fetches mem a op) :
    ∃ row ∈ table, op.1 = row.mnemonic ∧ ∃ v, FitsAll [] v row.slots op.2 := by
  obtain ⟨hi, lo, _, _, ⟨row', hr', hm⟩, row, hr, v, e, hfit, _, _⟩ := hf
  refine ⟨row, hr, ?_, v, hfit⟩
  rw [hm, ← row_lower row' hr', ← row_lower row hr, ← hm]
  exact (toLowercase_eq_iff _ _).2 e

theorem fits_addr' {v : Vars} {f : Field} (h : Fits [] v .addr f) : ∃ k : U12, f = .numericLiteral k := by
  cases h with
  | addr h =>
    generalize v.nnn = n at h
    cases h with
    | literal k => exact ⟨k, rfl⟩
    | label h => cases h

/-- The operands of a jump. -/
theorem fetches_jp {mem : List (Nat × U8)} {a : Nat} {fs : List Field} (hf : Fetches mem a ("jp".toList, fs)) :
    (∃ v : U12, fs = [.numericLiteral v]) ∨ ∃ v : U12, fs = [.generalPurposeRegister 0, .numericLiteral v] := by
  obtain ⟨row, hr, e, v, hfit⟩ := fetches_row hf
  have hd : ∀ r ∈ table, "jp".toList = r.mnemonic → r.slots = [.addr] ∨ r.slots = [.v0, .addr] := by decide +kernel
  rcases hd row hr e with e3 | e3 <;> rw [e3] at hfit <;> dsimp only at hfit
  · generalize fs = gs at hfit
    cases hfit with
    | cons h h' =>
      cases h'
      obtain ⟨k, rfl⟩ := fits_addr' h
      exact .inl ⟨k, rfl⟩
  · generalize fs = gs at hfit
    cases hfit with
    | cons h h' =>
      cases h
      cases h' with
      | cons h h' =>
        cases h'
        obtain ⟨k, rfl⟩ := fits_addr' h
        exact .inr ⟨k, rfl⟩

/-- The operand of a call. -/
theorem fetches_call {mem : List (Nat × U8)} {a : Nat} {fs : List Field} (hf : Fetches mem a ("call".toList, fs)) :
    ∃ v : U12, fs = [.numericLiteral v] := by
  obtain ⟨row, hr, e, v, hfit⟩ := fetches_row hf
  have hd : ∀ r ∈ table, "call".toList = r.mnemonic → r.slots = [.addr] := by decide +kernel
  rw [hd row hr e] at hfit
  dsimp only at hfit
  generalize fs = gs at hfit
  cases hfit with
  | cons h h' =>
    cases h'
    obtain ⟨k, rfl⟩ := fits_addr' h
    exact ⟨k, rfl⟩

/-- The first of the two operands of a jump is `V0`. -/
theorem fetches_jumpV0 {mem : List (Nat × U8)} {a : Nat} {f g : Field} (hf : Fetches mem a ("jp".toList, [f, g])) :
    f = .generalPurposeRegister 0 := by
  rcases fetches_jp hf with ⟨v, e⟩ | ⟨v, e⟩ <;> cases e
  rfl

theorem step_forward (ha : assemble nodes = .ret (.ok ranges)) {e : Executed} {s s' t : Nat × List Nat}
    (hs : SourceStep nodes e s s') (hp : Placed nodes s t) :
    ∃ t', MachineStep (image ranges) e t t' ∧ Placed nodes s' t' := by
  obtain ⟨a, st⟩ := t
  obtain ⟨hpc, hst⟩ := hp
  cases hs with
  | next h1 h2 h3 =>
    exact ⟨_, .next (spells_fetches ha h1 hpc.2) h2, lands_reaches h3 (instructionAt_next hpc), hst⟩
  | skip h1 h2 h3 h4 =>
    exact ⟨_, .skip (spells_fetches ha h1 hpc.2) h2,
      lands_reaches h4 (instructionAt_next (lands_reaches h3 (instructionAt_next hpc))), hst⟩
  | @jump op _ _ _ h1 h2 h3 =>
    obtain ⟨v, hv, hj⟩ := targets_address ha h1 h3
    obtain ⟨m, fs⟩ := op
    obtain rfl : m = _ := h2
    obtain rfl : fs = _ := hv
    exact ⟨_, .jump (spells_fetches ha h1 hpc.2), hj, hst⟩
  | @jumpV0 op _ _ x _ h1 h2 h0 h3 =>
    obtain ⟨f, v, hv, hj⟩ := targetsV0_address ha h1 h3
    obtain ⟨m, fs⟩ := op
    obtain rfl : m = _ := h2
    obtain rfl : fs = _ := hv
    have hf := spells_fetches ha h1 hpc.2
    obtain rfl := fetches_jumpV0 hf
    exact ⟨_, .jumpV0 hf h0, hj, hst⟩
  | @call op _ _ _ _ h1 h2 h3 h4 =>
    obtain ⟨v, hv, hj⟩ := targets_address ha h1 h3
    obtain ⟨m, fs⟩ := op
    obtain rfl : m = _ := h2
    obtain rfl : fs = _ := hv
    exact ⟨_, .call (spells_fetches ha h1 hpc.2), hj, .cons (lands_reaches h4 (instructionAt_next hpc)) hst⟩
  | @ret op _ _ _ h1 h2 =>
    cases hst with
    | cons hr hst =>
      obtain ⟨m, fs⟩ := op
      obtain rfl : m = _ := h2
      have hf := spells_fetches ha h1 hpc.2
      have hfs : fs = [] := fetches_ret hf
      subst hfs
      exact ⟨_, .ret hf, hr, hst⟩

theorem jumping_head {tables : Nat → Prop} {e : Executed} {es : List Executed} (h : Jumping tables (e :: es)) :
    ∀ x, e.2 = .offset x → tables x := by
  intro x hx
  refine h e.1 x ?_
  rw [← hx]
  exact List.mem_cons_self ..

theorem jumping_tail {tables : Nat → Prop} {e : Executed} {es : List Executed} (h : Jumping tables (e :: es)) :
    Jumping tables es := fun op x hm => h op x (List.mem_cons_of_mem _ hm)

theorem step_backward (ha : assemble nodes = .ret (.ok ranges)) (ho : findOverlappingRanges ranges = [])
    {tables : Nat → Prop} (hc : ClosedFlow nodes tables) {e : Executed} {s t t' : Nat × List Nat}
    (hs : MachineStep (image ranges) e t t') (hp : Placed nodes s t) (hx : ∀ x, e.2 = .offset x → tables x) : ∃ s', SourceStep nodes e s s' ∧ Placed nodes s' t' := by
  obtain ⟨i, is⟩ := s
  obtain ⟨hpc, hst⟩ := hp
  cases hs with
  | @next op _ _ h1 h2 =>
    have hsp := fetches_spells ha ho hpc h1
    obtain ⟨j, hj⟩ := hc.next i op hsp h2
    exact ⟨_, .next hsp h2 hj, lands_reaches hj (instructionAt_next hpc), hst⟩
  | @skip op _ _ h1 h2 =>
    have hsp := fetches_spells ha ho hpc h1
    have h2' : op.1 ∉ leaving := by
      have : ∀ m ∈ skipping, m ∉ leaving := by decide +kernel
      exact this _ h2
    obtain ⟨j, hj⟩ := hc.next i op hsp h2'
    obtain ⟨k, hk⟩ := hc.skip i op j hsp h2 hj
    exact ⟨_, .skip hsp h2 hj hk, lands_reaches hk (instructionAt_next (lands_reaches hj (instructionAt_next hpc))), hst⟩
  | @jump pc st v h1 =>
    have hsp := fetches_spells ha ho hpc h1
    obtain ⟨j, hj⟩ := hc.jump i _ hsp rfl rfl
    obtain ⟨v', e, hj'⟩ := targets_address ha hsp hj
    cases e
    exact ⟨_, .jump hsp rfl hj, hj', hst⟩
  | @jumpV0 _ x _ _ h1 h0 =>
    have hsp := fetches_spells ha ho hpc h1
    obtain ⟨j, hj⟩ := hc.jumpV0 i _ x hsp rfl rfl h0 (hx x rfl)
    obtain ⟨f, v', e, hj'⟩ := targetsV0_address ha hsp hj
    cases e
    exact ⟨_, .jumpV0 hsp rfl h0 hj, hj', hst⟩
  | call h1 =>
    have hsp := fetches_spells ha ho hpc h1
    obtain ⟨j, r, hj, hr⟩ := hc.call i _ hsp rfl
    obtain ⟨v', e, hj'⟩ := targets_address ha hsp hj
    cases e
    exact ⟨_, .call hsp rfl hj hr, hj', .cons (lands_reaches hr (instructionAt_next hpc)) hst⟩
  | ret h1 =>
    have hsp := fetches_spells ha ho hpc h1
    generalize is = is' at hst ⊢
    cases hst with
    | cons hr hst => exact ⟨_, .ret hsp rfl, hr, hst⟩

end

end C8S
