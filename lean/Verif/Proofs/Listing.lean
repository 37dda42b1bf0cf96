import Verif.Proofs.Disassembly
import Verif.Proofs.Edit
import Verif.Proofs.Image
import Verif.Props.Layout
import Verif.Spec.Listing

/- Lemmas on listings. -/

namespace C8S

open Spec

def opNode (op : Opcode) : Node := .instruction noLoc op.mnemonicOf (op.parts.map Prod.snd)

theorem text_cut [Target] {m text : Str} {ps : List (Str × Field)} (hm : IsName m)
    (hg : ∀ p ∈ ps, GoodPart wordBinary p) (ht : text = m ++ Opcode.operandList (ps.map Prod.fst)) :
    HasCut (text ++ ['\n']) [.instruction noLoc m (ps.map Prod.snd)] := by
  have hnl : Cut wordBinary ['\n'] [.newline noLoc] := cut_newline (.done (by simp))
  have hc : Cut wordBinary (text ++ ['\n'])
      (.identifier m noLoc :: (commas (ps.map fun p => partKind p noLoc) ++ [.newline noLoc])) := by
    subst ht
    cases ps with
    | nil =>
      rw [show m ++ Opcode.operandList (List.map Prod.fst []) ++ ['\n'] = m ++ '\n' :: [] by simp [Opcode.operandList]]
      exact cut_plain (name_plain hm) (by decide) hnl
    | cons p ps =>
      rw [show m ++ Opcode.operandList (List.map Prod.fst (p :: ps)) ++ ['\n'] =
        m ++ ' ' :: (separated ((p :: ps).map Prod.fst) ++ '\n' :: []) by simp [Opcode.operandList]]
      exact cut_plain (name_plain hm) (by decide) (cut_space (cut_separated Prod.fst partKind _ (fun q hq => (hg q hq).1) hnl))
  have hi : ItemList OperandTok ps.isEmpty (commas (ps.map fun p => partKind p noLoc)) (ps.map Prod.snd) := by
    have h1 := items_commas (item := fun t p => OperandTok t p.2) partKind ps fun p hp => (hg p hp).2 _
    generalize commas (ps.map fun p => partKind p noLoc) = args at h1
    generalize ps.isEmpty = b at h1
    clear hc hg ht
    induction h1 with
    | empty => exact .empty
    | one hx => exact .one hx
    | more hx _ ih => exact .more hx ih
  exact ⟨_, hc, .instruction hi (fun _ => ⟨_, _, rfl, .inl ⟨_, rfl⟩⟩) (.blank (.inl ⟨_, rfl⟩) .empty)⟩

theorem cut_indented [Target] {n : Nat} {text : Str} {ts : List Token} :
    Cut wordBinary (List.replicate n ' ' ++ text) ts ↔ Cut wordBinary text ts := by
  have hb : ∀ c ∈ List.replicate n ' ', Blank c := by
    intro c hc
    rw [(List.mem_replicate.1 hc).2]
    decide
  refine ⟨cut_unblank hb, fun h => ?_⟩
  induction n with
  | zero => exact h
  | succ n ih =>
    rw [List.replicate_succ, List.cons_append]
    exact cut_space (ih fun c hc => hb c (by rw [List.replicate_succ]; exact List.mem_cons_of_mem _ hc))

theorem line_cut [Target] {op : Opcode} (n : Nat) (h : op.WellFormed) (hw : op.FullWidth) :
    HasCut (op.toFormattedAssemblyString n ++ ['\n']) [opNode op] := by
  obtain ⟨ts, hc, hp⟩ := text_cut op.mnemonicOf_name (parts_good h hw) op.text_parts
  refine ⟨ts, ?_, hp⟩
  show Cut wordBinary (List.replicate n ' ' ++ op.toAssemblyString ++ ['\n']) ts
  rw [List.append_assoc, cut_indented]
  exact hc

theorem listing_cons (n : Nat) (op : Opcode) (ls : List (Nat × Opcode)) :
    listing ((n, op) :: ls) = (op.toFormattedAssemblyString n ++ ['\n']) ++ listing ls := rfl

theorem listing_lines (ls : List (Nat × Opcode)) : WholeLines (listing ls) := by
  induction ls with
  | nil => exact .inl rfl
  | cons p ls ih =>
    obtain ⟨n, op⟩ := p
    rw [listing_cons]
    rcases ih with h | ⟨t, h⟩
    · rw [h, List.append_nil]
      exact .inr ⟨_, rfl⟩
    · rw [h]
      exact .inr ⟨op.toFormattedAssemblyString n ++ ['\n'] ++ t, by simp⟩

theorem listing_cut [Target] {ls : List (Nat × Opcode)} (h : ∀ p ∈ ls, p.2.WellFormed) (hw : ∀ p ∈ ls, p.2.FullWidth) :
    HasCut (listing ls) (ls.map fun p => opNode p.2) := by
  induction ls with
  | nil => exact ⟨[], .done (by simp [listing]), .empty⟩
  | cons p ls ih =>
    obtain ⟨n, op⟩ := p
    rw [listing_cons]
    exact hasCut_append (.inr ⟨_, rfl⟩) (line_cut n (h _ List.mem_cons_self) (hw _ List.mem_cons_self))
      (ih (fun q hq => h q (List.mem_cons_of_mem _ hq)) fun q hq => hw q (List.mem_cons_of_mem _ hq))

/-- A listing with padding is not tokenised. -/
theorem listing_padded [Target] {ls : List (Nat × Opcode)} (h : ∀ p ∈ ls, p.2.WellFormed) {rest : Str} {ts : List Token}
    (hc : Cut wordBinary (listing ls ++ rest) ts) : ∀ p ∈ ls, p.2.FullWidth := by
  induction ls generalizing ts with
  | nil => simp
  | cons p ls ih =>
    obtain ⟨n, op⟩ := p
    have hop : op.WellFormed := h (n, op) List.mem_cons_self
    rw [listing_cons] at hc
    have hf : op.FullWidth := by
      refine Classical.byContradiction fun hn => ?_
      rw [show op.toFormattedAssemblyString n ++ ['\n'] ++ listing ls ++ rest = List.replicate n ' ' ++
        (op.toAssemblyString ++ (['\n'] ++ listing ls ++ rest)) by
          simp [Opcode.toFormattedAssemblyString, Opcode.display]] at hc
      exact padded_rejected hop hn _ _ (cut_indented.1 hc)
    obtain ⟨t1, c1, _⟩ := line_cut n hop hf
    rw [List.append_assoc] at hc
    obtain ⟨tb, _, hb⟩ := cut_split c1 (whole_apart (.inr ⟨_, rfl⟩) c1) hc
    intro q hq
    rcases List.mem_cons.1 hq with rfl | hq
    · exact hf
    · exact ih (fun q hq => h q (List.mem_cons_of_mem _ hq)) hb q hq

/-! ### What the statements assemble to -/

def orgNode (a : U12) : Node := .directive noLoc "org".toList [.numeric a.toNat]

theorem orgNode_means (a : U12) : DirectiveMeans "org".toList [.numeric a.toNat] (.org a) := .org a (by decide)

theorem orgLine_source (a : U12) : orgLine a = sourceText [orgNode a] := by
  show _ = lineText (.directive noLoc ['o', 'r', 'g'] [.numeric a.toNat]) ++ []
  rw [Image.line_directive, List.append_nil]
  rfl

theorem orgLine_lines (a : U12) : WholeLines (orgLine a) := .inr ⟨_, rfl⟩

theorem orgLine_cut [Target] (a : U12) : HasCut (orgLine a) [orgNode a] := by
  have h : ∀ n ∈ [orgNode a], Formed n := by
    intro n hn
    cases List.mem_singleton.1 hn
    refine ⟨.inl ⟨'o', ['r', 'g'], rfl, by decide, by decide⟩, fun x hx => ?_⟩
    cases List.mem_singleton.1 hx
    have := a.isLt
    show a.toNat ≤ _
    omega
  obtain ⟨h1, h2⟩ := cut_source (bin := wordBinary) h
  rw [orgLine_source]
  exact ⟨_, h1, h2⟩

theorem opNode_reaches (ops : List Opcode) (a : Nat) : Reaches (ops.map opNode) a (a + 2 * ops.length) := by
  induction ops generalizing a with
  | nil => exact .nil
  | cons op ops ih =>
    have := ih (a + 2)
    rw [show a + 2 + 2 * ops.length = a + 2 * (op :: ops).length by simp; omega] at this
    exact .cons .instruction this

theorem opNode_emits {op : Opcode} {hi lo : U8} {w : U16} (h : op.WellFormed) (hw : op.dropY.asInstruction = .ret w)
    (e : w.toNat = hi.toNat * 256 + lo.toNat) (labels : LabelMap) (hl : ∀ s, labels.get s = none) :
    Emits labels (opNode op) [hi, lo] := by
  refine .instruction ?_
  rw [← e]
  exact encodes_congr (labels := []) (fun s => (hl s).symm) (encodes_iff.1 ⟨op.dropY, op.parts_select h, hw⟩)

theorem opNode_writes {ops : List Opcode} {bytes : List U8} (h : ∀ op ∈ ops, op.WellFormed)
    (hb : WordBytes (ops.map Opcode.dropY) bytes) (labels : LabelMap) (hl : ∀ s, labels.get s = none) (a : Nat) :
    Writes labels (ops.map opNode) a (placeAt a bytes) := by
  induction ops generalizing a bytes with
  | nil => cases hb; exact .nil
  | cons op ops ih =>
    cases hb with
    | @cons _ _ w hi lo bytes hw e hb =>
      have := ih (fun o ho => h o (List.mem_cons_of_mem _ ho)) hb (a + 2)
      exact .emit (opNode_emits (h op List.mem_cons_self) hw e labels hl) this

theorem wordBytes_exists {ops : List Opcode} (h : ∀ op ∈ ops, op.WellFormed) : ∃ bytes, WordBytes ops bytes := by
  induction ops with
  | nil => exact ⟨[], .nil⟩
  | cons op ops ih =>
    obtain ⟨bytes, hb⟩ := ih fun o ho => h o (List.mem_cons_of_mem _ ho)
    obtain ⟨w, hw, _⟩ := (C26_decode_encode op).1 (h op List.mem_cons_self)
    have hv : Instruction.intoVec op = .ret [((w &&& 0xFF00) >>> 8).setWidth 8, ((w &&& 0x00FF) >>> 0).setWidth 8] := by
      unfold Instruction.intoVec
      rw [hw]
      rfl
    obtain ⟨w', hi, lo, e1, _, e3⟩ := intoVec_iff.1 hv
    exact ⟨_, .cons e1 e3 hb⟩

theorem wordBytes_length {ops : List Opcode} {bytes : List U8} (h : WordBytes ops bytes) : bytes.length = 2 * ops.length := by
  induction h with
  | nil => rfl
  | cons _ _ _ ih => simp only [List.length_cons, ih]; omega

theorem wordBytes_unique {ops : List Opcode} {bytes bytes' : List U8} (h : WordBytes ops bytes) (h' : WordBytes ops bytes') :
    bytes = bytes' := by
  induction h generalizing bytes' with
  | nil => cases h'; rfl
  | @cons _ _ _ hi lo _ hw e _ ih =>
    cases h' with
    | @cons _ _ _ hi' lo' _ hw' e' h' =>
      cases hw.symm.trans hw'
      have := hi.isLt
      have := lo.isLt
      have h1 := lo'.isLt
      rw [ih h', BitVec.eq_of_toNat_eq (show hi.toNat = hi'.toNat by omega), BitVec.eq_of_toNat_eq (show lo.toNat = lo'.toNat by omega)]

theorem placeAt_inj {a : Nat} {xs ys : List U8} (h : placeAt a xs = placeAt a ys) : xs = ys := by
  induction xs generalizing a ys with
  | nil =>
    cases ys with
    | nil => rfl
    | cons y ys => cases h
  | cons x xs ih =>
    cases ys with
    | nil => cases h
    | cons y ys =>
      simp only [placeAt, List.cons.injEq, Prod.mk.injEq, true_and] at h
      rw [h.1, ih h.2]

theorem opNodes_valid {pre : List Node} {a : Nat} {labels : LabelMap} {ops : List Opcode}
    (hpre : (pre = [] ∧ a = 0) ∨ ∃ v : U12, pre = [orgNode v] ∧ a = v.toNat) (h : ∀ op ∈ ops, op.WellFormed) :
    Valid (pre ++ ops.map opNode) labels ↔ (∀ s, labels.get s = none) ∧ a + 2 * ops.length ≤ 0xFFF := by
  have hr : Reaches pre 0 a := by
    rcases hpre with ⟨rfl, rfl⟩ | ⟨v, rfl, rfl⟩
    · exact .nil
    · exact .cons (.org (orgNode_means v)) .nil
  have hnl : ∀ l s, .label l s ∉ pre ++ ops.map opNode := by
    intro l s hm
    rcases List.mem_append.1 hm with hm | hm
    · rcases hpre with ⟨rfl, rfl⟩ | ⟨v, rfl, rfl⟩
      · cases hm
      · cases List.mem_singleton.1 hm
    · obtain ⟨o, _, e⟩ := List.mem_map.1 hm
      cases e
  have hlv : ∀ s v, ¬ LabelValue (pre ++ ops.map opNode) s v := by
    intro s v hv
    generalize e : pre ++ ops.map opNode = ns at *
    cases hv with
    | constant _ => exact hnl _ _ (List.mem_append_right _ List.mem_cons_self)
    | address _ _ => exact hnl _ _ (List.mem_append_right _ List.mem_cons_self)
  constructor
  · intro hv
    refine ⟨fun s => ?_, hv.fits _ [] _ (by simp) (reaches_append.2 ⟨a, hr, opNode_reaches ops a⟩)⟩
    cases hg : labels.get s with
    | none => rfl
    | some v => exact (hlv s v ((hv.labelValues s v).1 hg)).elim
  · rintro ⟨hl, hf⟩
    refine ⟨?_, ?_, ?_, ?_, ?_, ?_⟩
    · intro loc name args hm
      rcases List.mem_append.1 hm with hm | hm
      · rcases hpre with ⟨rfl, rfl⟩ | ⟨v, rfl, rfl⟩
        · cases hm
        · cases List.mem_singleton.1 hm
          exact ⟨_, orgNode_means v⟩
      · obtain ⟨o, _, e⟩ := List.mem_map.1 hm
        cases e
    · intro p q v e hc
      cases hc with
      | @intro loc name args _ rest hm =>
        have hmem : Node.directive loc name args ∈ pre ++ ops.map opNode := by
          rw [e]
          exact List.mem_append_right _ List.mem_cons_self
        rcases List.mem_append.1 hmem with hmem | hmem
        · rcases hpre with ⟨rfl, rfl⟩ | ⟨w, rfl, rfl⟩
          · cases hmem
          · cases List.mem_singleton.1 hmem
            cases means_unique hm (orgNode_means w)
        · obtain ⟨o, _, e⟩ := List.mem_map.1 hmem
          cases e
    · have : labelNames (pre ++ ops.map opNode) = [] := by
        have key : ∀ ns : List Node, (∀ l s, .label l s ∉ ns) → labelNames ns = [] := by
          intro ns
          induction ns with
          | nil => intro _; rfl
          | cons n ns ih =>
            intro hn
            cases n with
            | label l s => exact (hn l s List.mem_cons_self).elim
            | directive l s xs => exact ih fun l s hm => hn l s (List.mem_cons_of_mem _ hm)
            | instruction l s xs => exact ih fun l s hm => hn l s (List.mem_cons_of_mem _ hm)
        exact key _ hnl
      rw [this]
      exact List.nodup_nil
    · intro p q b e hb
      have hall : ∀ (ops : List Opcode) (a b : Nat) (p q : List Node), ops.map opNode = p ++ q → Reaches p a b → b ≤ a + 2 * ops.length := by
        intro ops
        induction ops with
        | nil =>
          intro a b p q e hb
          cases p with
          | nil => cases hb; omega
          | cons n p => cases e
        | cons o ops ih =>
          intro a b p q e hb
          cases p with
          | nil => cases hb; omega
          | cons n p =>
            rw [List.map_cons, List.cons_append, List.cons.injEq] at e
            obtain ⟨rfl, e⟩ := e
            cases hb with
            | cons hm hb =>
              cases hm
              have := ih _ _ _ _ e hb
              simp only [List.length_cons]
              omega
      rcases hpre with ⟨rfl, rfl⟩ | ⟨v, rfl, rfl⟩
      · have := hall ops 0 b p q e hb
        omega
      · cases p with
        | nil => cases hb; omega
        | cons n p =>
          rw [List.singleton_append, List.cons_append, List.cons.injEq] at e
          obtain ⟨rfl, e⟩ := e
          cases hb with
          | cons hm hb =>
            cases reaches_unique (reaches_single.2 hm) (reaches_single.2 (.org (orgNode_means v)))
            have := hall ops _ b p q e hb
            omega
    · intro s v
      rw [hl s]
      exact ⟨fun h => (by cases h), fun h => (hlv s v h).elim⟩
    · intro loc m fs hm
      rcases List.mem_append.1 hm with hm | hm
      · rcases hpre with ⟨rfl, rfl⟩ | ⟨v, rfl, rfl⟩
        · cases hm
        · cases List.mem_singleton.1 hm
      · obtain ⟨o, ho, e⟩ := List.mem_map.1 hm
        cases e
        obtain ⟨w, hw, _⟩ := (C26_decode_encode o.dropY).1 (Opcode.dropY_wellFormed (h o ho))
        exact ⟨_, encodes_congr (labels := []) (fun s => (hl s).symm) (encodes_iff.1 ⟨o.dropY, o.parts_select (h o ho), hw⟩)⟩

/-- When a listing is accepted, and as what. -/
theorem describes_listing [Target] {file hdr : Str} {pre : List Node} {a : Nat} (hw : WholeLines hdr) (hc : HasCut hdr pre)
    (hpre : (pre = [] ∧ a = 0) ∨ ∃ v : U12, pre = [orgNode v] ∧ a = v.toNat) {ls : List (Nat × Opcode)}
    (h : ∀ p ∈ ls, p.2.WellFormed) (X : List (Nat × U8)) :
    Describes wordBinary file (hdr ++ listing ls) X ↔ (∀ p ∈ ls, p.2.FullWidth) ∧ a + 2 * ls.length ≤ 0xFFF ∧
      ∃ bytes, WordBytes (ls.map fun p => p.2.dropY) bytes ∧ X = placeAt a bytes := by
  have hops : ∀ op ∈ ls.map Prod.snd, op.WellFormed := by
    intro op hm
    obtain ⟨p, hp, rfl⟩ := List.mem_map.1 hm
    exact h p hp
  have hbs : ∃ bytes, WordBytes (ls.map fun p => p.2.dropY) bytes := by
    refine wordBytes_exists fun o ho => ?_
    obtain ⟨p, hp, rfl⟩ := List.mem_map.1 ho
    exact Opcode.dropY_wellFormed (h p hp)
  obtain ⟨bytes, hb⟩ := hbs
  have hnodes : (ls.map fun p => opNode p.2) = (ls.map Prod.snd).map opNode := by rw [List.map_map]; rfl
  have hbytes : WordBytes ((ls.map Prod.snd).map Opcode.dropY) bytes := by rw [List.map_map]; exact hb
  have hr : ∀ labels : LabelMap, (∀ s, labels.get s = none) →
      Writes labels (pre ++ (ls.map Prod.snd).map opNode) 0 (placeAt a bytes) := by
    intro labels hl
    have := opNode_writes hops hbytes labels hl a
    rcases hpre with ⟨rfl, rfl⟩ | ⟨v, rfl, rfl⟩
    · exact this
    · exact .org (orgNode_means v) this
  have key : (∀ p ∈ ls, p.2.FullWidth) → (Describes wordBinary file (hdr ++ listing ls) X ↔
      a + 2 * ls.length ≤ 0xFFF ∧ X = placeAt a bytes) := by
    intro hf
    have hcut := hasCut_append hw hc (listing_cut h hf)
    rw [hasCut_describes hcut, hnodes]
    constructor
    · rintro ⟨ranges, ha, rfl⟩
      obtain ⟨labels, hv⟩ := (C34_valid _).1 ⟨ranges, ha⟩
      obtain ⟨hl, hfit⟩ := (opNodes_valid hpre hops).1 hv
      rw [List.length_map] at hfit
      exact ⟨hfit, ((C33_image _ labels ranges ha hv.labelValues _).1 (hr labels hl)).symm⟩
    · rintro ⟨hfit, rfl⟩
      have hv := (opNodes_valid (labels := []) hpre hops).2 ⟨fun s => rfl, by rw [List.length_map]; exact hfit⟩
      obtain ⟨ranges, ha⟩ := (C34_valid _).2 ⟨[], hv⟩
      exact ⟨ranges, ha, (C33_image _ [] ranges ha hv.labelValues _).1 (hr [] fun s => rfl)⟩
  constructor
  · intro hd
    obtain ⟨ts, hct⟩ := describes_tokens hd
    obtain ⟨t1, c1, _⟩ := hc
    obtain ⟨tb, _, c2⟩ := cut_split c1 (whole_apart hw c1) hct
    have hf := listing_padded h (rest := []) (by rw [List.append_nil]; exact c2)
    obtain ⟨h1, h2⟩ := (key hf).1 hd
    exact ⟨hf, h1, bytes, hb, h2⟩
  · rintro ⟨hf, hfit, bytes', hb', rfl⟩
    cases wordBytes_unique hb hb'
    exact (key hf).2 ⟨hfit, rfl⟩

theorem wordBytes_plain {ops : List Opcode} {bytes : List U8} (h : WordBytes ops bytes) :
    WordBytes (ops.map Opcode.dropY) bytes ↔ ∀ op ∈ ops, op.PlainShift := by
  constructor
  · intro h'
    induction h with
    | nil => simp
    | cons hw e _ ih =>
      cases h' with
      | cons hw' e' h' =>
        intro o ho
        rcases List.mem_cons.1 ho with rfl | ho
        · cases BitVec.eq_of_toNat_eq (e.trans e'.symm)
          exact (Opcode.dropY_iff _).1 (C26_encode_injective _ _ _ hw' hw)
        · exact ih h' o ho
  · intro hp
    have : ops.map Opcode.dropY = ops := by
      rw [List.map_congr_left fun o ho => (Opcode.dropY_iff o).2 (hp o ho)]
      simp
    rw [this]
    exact h

theorem wordBytes_wellFormed {ops : List Opcode} {bytes : List U8} (h : WordBytes ops bytes) : ∀ op ∈ ops, op.WellFormed := by
  induction h with
  | nil => simp
  | @cons op _ _ _ _ _ hw _ _ ih =>
    intro o ho
    rcases List.mem_cons.1 ho with rfl | ho
    · refine Classical.byContradiction fun hn => ?_
      rw [(C26_decode_encode o).2 hn] at hw
      cases hw
    · exact ih o ho

theorem listed_word (w : U16) : (Opcode.fromInstruction w).dropY.asInstruction = .ret w ↔
    (w = 0 ∨ Opcode.fromInstruction w ≠ .NOP) ∧ (Opcode.fromInstruction w).PlainShift := by
  obtain ⟨_, h1, h2⟩ := C27_encode_decode w
  by_cases hn : Opcode.fromInstruction w = .NOP
  · rw [hn] at h2 ⊢
    have h2 := h2 rfl
    show Opcode.asInstruction .NOP = _ ↔ _
    rw [h2, Run.ret.injEq]
    exact ⟨fun h => ⟨.inl h.symm, trivial⟩, fun h => (h.1.resolve_right (by simp)).symm⟩
  · constructor
    · intro h
      exact ⟨.inr hn, (Opcode.dropY_iff _).1 (C26_encode_injective _ _ _ h (h1 hn))⟩
    · rintro ⟨_, h⟩
      rw [(Opcode.dropY_iff _).2 h]
      exact h1 hn

theorem decoded_words {bytes : List U8} {ops : List Opcode} (h : Decoded bytes ops) :
    WordBytes (ops.map Opcode.dropY) bytes ↔
      ∀ w, HasWord bytes w → (w = 0 ∨ Opcode.fromInstruction w ≠ .NOP) ∧ (Opcode.fromInstruction w).PlainShift := by
  induction h with
  | nil => exact ⟨fun _ w h => (by cases h), fun _ => .nil⟩
  | @cons w hi lo bytes ops e _ ih =>
    constructor
    · intro h
      cases h with
      | cons hw e' h =>
        cases BitVec.eq_of_toNat_eq (e.trans e'.symm)
        intro v hv
        cases hv with
        | here e2 =>
          cases BitVec.eq_of_toNat_eq (e.trans e2.symm)
          exact (listed_word _).1 hw
        | later hv => exact ih.1 h v hv
    · intro h
      exact .cons ((listed_word w).2 (h w (.here e))) e (ih.2 fun v hv => h v (.later hv))

theorem decoded_length {bytes : List U8} {ops : List Opcode} (h : Decoded bytes ops) : bytes.length = 2 * ops.length := by
  induction h with
  | nil => rfl
  | cons _ _ ih => simp only [List.length_cons, ih]; omega

theorem decoded_mem {bytes : List U8} {ops : List Opcode} (h : Decoded bytes ops) (op : Opcode) :
    op ∈ ops ↔ ∃ w, HasWord bytes w ∧ op = Opcode.fromInstruction w := by
  induction h with
  | nil => exact ⟨fun h => (by cases h), fun ⟨w, h, _⟩ => (by cases h)⟩
  | @cons w hi lo bytes ops e _ ih =>
    rw [List.mem_cons, ih]
    constructor
    · rintro (rfl | ⟨v, hv, rfl⟩)
      · exact ⟨w, .here e, rfl⟩
      · exact ⟨v, .later hv, rfl⟩
    · rintro ⟨v, hv, rfl⟩
      cases hv with
      | here e2 =>
        cases BitVec.eq_of_toNat_eq (e.trans e2.symm)
        exact .inl rfl
      | later hv => exact .inr ⟨v, hv, rfl⟩

end C8S
