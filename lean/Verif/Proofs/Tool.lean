import Verif.Spec.Tool
import Verif.Proofs.Grammar
import Verif.Props.Scanner
import Verif.Props.Parser
import Verif.Props.IHex

/- What a run on a source text does, by cases. -/

namespace C8S

open Spec

theorem operand_register {f : Field} {s : Str} (h : OperandOf s f) (r : U8) (hf : f = .generalPurposeRegister r) :
    r.toNat ≤ 15 := by
  cases h with
  | register h =>
    cases h with
    | special h =>
      subst hf
      simp [specialNames] at h
    | general _ h =>
      cases hf
      unfold HexDigit at h
      omega
  | label => cases hf

theorem operands_registers {b : Bool} {ts : List Token} {fs : List Field} (h : ItemList OperandTok b ts fs) :
    FourBitRegisters fs := by
  have key : ∀ {t f}, OperandTok t f → ∀ r, f = .generalPurposeRegister r → r.toNat ≤ 15 := by
    intro t f h r hf
    cases h with
    | numeric => cases hf
    | name h => exact operand_register h r hf
  induction h with
  | empty => intro r hr; cases hr
  | one h =>
    intro r hr
    exact key h r (List.mem_singleton.1 hr).symm
  | more h _ ih =>
    intro r hr
    rcases List.mem_cons.1 hr with hr | hr
    · exact key h r hr.symm
    · exact ih r hr

/-- The parser yields register numbers below 16 only. -/
theorem program_registers {ts : List Token} {ns : List Node} (h : Program ts ns) : FourBitProgram ns := by
  induction h with
  | empty => intro _ _ _ h; cases h
  | blank _ _ ih => exact ih
  | label _ ih =>
    intro l m f hm
    rcases List.mem_cons.1 hm with hm | hm
    · cases hm
    · exact ih l m f hm
  | directive _ _ _ ih =>
    intro l m f hm
    rcases List.mem_cons.1 hm with hm | hm
    · cases hm
    · exact ih l m f hm
  | instruction hi _ _ ih =>
    intro l m f hm
    rcases List.mem_cons.1 hm with hm | hm
    · cases hm
      exact operands_registers hi
    · exact ih l m f hm

/-- A statement is located at its name. -/
theorem program_location {ts : List Token} {ns : List Node} (h : Program ts ns) :
    ∀ n ∈ ns, ∃ name, .identifier name (nodeLocation n) ∈ ts := by
  induction h with
  | empty => intro _ h; cases h
  | blank _ _ ih =>
    intro n hn
    obtain ⟨name, h⟩ := ih n hn
    exact ⟨name, List.mem_cons_of_mem _ h⟩
  | label _ ih =>
    intro n hn
    rcases List.mem_cons.1 hn with rfl | hn
    · exact ⟨_, List.mem_cons_self⟩
    · obtain ⟨name, h⟩ := ih n hn
      exact ⟨name, by simp [h]⟩
  | directive _ _ _ ih =>
    intro n hn
    rcases List.mem_cons.1 hn with rfl | hn
    · exact ⟨_, by simp [nodeLocation]; exact .inl rfl⟩
    · obtain ⟨name, h⟩ := ih n hn
      exact ⟨name, by simp [h]⟩
  | instruction _ _ _ ih =>
    intro n hn
    rcases List.mem_cons.1 hn with rfl | hn
    · exact ⟨_, by simp [nodeLocation]; exact .inl rfl⟩
    · obtain ⟨name, h⟩ := ih n hn
      exact ⟨name, by simp [h]⟩

/-- A range of an assembled program can be displayed. -/
theorem display_range {r : DataRange} (h1 : r.data ≠ []) (h2 : rangeEnd r ≤ 0xFFF) : ∃ text, r.display = .ret text := by
  have h3 := addressRange_end_of_lt (r := r) (by omega)
  have h4 : 0 < rangeEnd r := by
    have := List.length_pos_iff.2 h1
    simp only [rangeEnd]
    omega
  unfold DataRange.display
  simp only
  rw [if_neg (by omega)]
  exact ⟨_, rfl⟩

theorem padded_triple_split : ∀ h, h < 16 → ∀ m, m < 16 → ∀ l, l < 16 →
    padLeft '0' 3 (showHexUpper (256 * h + 16 * m + l)) = upperTriple (256 * h + 16 * m + l) := by decide +kernel

theorem padded_triple (a : Nat) (h : a < 4096) : padLeft '0' 3 (showHexUpper a) = upperTriple a := by
  have := padded_triple_split (a / 256) (by omega) (a / 16 % 16) (by omega) (a % 16) (by omega)
  rwa [show 256 * (a / 256) + 16 * (a / 16 % 16) + a % 16 = a by omega] at this

theorem display_shown {r : DataRange} (h1 : r.data ≠ []) (h2 : rangeEnd r ≤ 0xFFF) :
    r.display = .ret (shownRange r) := by
  have h3 := addressRange_end_of_lt (r := r) (by omega)
  have h4 : 0 < r.data.length := List.length_pos_iff.2 h1
  have h5 : rangeEnd r = r.startAddress.toNat + r.data.length := rfl
  unfold DataRange.display
  simp only [h3, addressRange_start]
  rw [if_neg (by omega), padded_triple _ (by omega), padded_triple _ (by omega)]
  rfl

theorem overlapReports_ret {program : Str} {pairs : List (DataRange × DataRange)}
    (h : ∀ p ∈ pairs, (∃ t, p.1.display = .ret t) ∧ ∃ t, p.2.display = .ret t) :
    ∃ events, overlapReports program pairs = .ret events ∧ PrintsOnly events := by
  induction pairs with
  | nil => exact ⟨[], rfl, by intro e he; cases he⟩
  | cons p rest ih =>
    obtain ⟨a, b⟩ := p
    obtain ⟨events, he, hp⟩ := ih fun p hp => h p (List.mem_cons_of_mem _ hp)
    obtain ⟨⟨ta, ha⟩, tb, hb⟩ := h (a, b) List.mem_cons_self
    simp only at ha hb
    refine ⟨_, by simp only [overlapReports, ha, hb, he, Run.ret_bind, Run.pure_eq]; rfl, ?_⟩
    intro e hm
    simp only [List.mem_cons] at hm
    rcases hm with rfl | rfl | hm
    · exact ⟨_, rfl⟩
    · exact ⟨_, rfl⟩
    · exact hp e hm

/-- The possible runs on a source text. -/
inductive TextRun [Target] (env : Env) (program input output text : Str) : Outcome → Prop where
  | syntaxError {tokens : List Token} {e : ParseError} {message : Str} :
    scan input text = .ret tokens → parse tokens = .ret (.error e) → e.display = .ret message →
    TextRun env program input output text ⟨[.printed (message ++ "\n".toList)], .code 1⟩
  | semanticError {tokens : List Token} {nodes : List Node} {e : SemanticError} :
    scan input text = .ret tokens → parse tokens = .ret (.ok nodes) → assemble nodes = .ret (.error e) →
    TextRun env program input output text ⟨[.printed (e.display ++ "\n".toList)], .code 1⟩
  | overlap {tokens : List Token} {nodes : List Node} {ranges : List DataRange} {events : List Event} :
    scan input text = .ret tokens → parse tokens = .ret (.ok nodes) → assemble nodes = .ret (.ok ranges) →
    findOverlappingRanges ranges ≠ [] → PrintsOnly events →
    TextRun env program input output text ⟨events, .code 1⟩
  | written {tokens : List Token} {nodes : List Node} {ranges : List DataRange} {hex : Str} :
    scan input text = .ret tokens → parse tokens = .ret (.ok nodes) → assemble nodes = .ret (.ok ranges) →
    findOverlappingRanges ranges = [] → ihexRepresentationOfDataRanges ranges = .ret hex →
    TextRun env program input output text (writeResult env program output hex)

theorem textRun [Target] (env : Env) (program input output text : Str) :
    TextRun env program input output text (assembleText env program input output text) := by
  obtain ⟨tokens, hs, _⟩ := scan_lex input text
  obtain ⟨out, hp⟩ := C10_total tokens
  unfold assembleText
  simp only [hs, hp]
  cases out with
  | error e =>
    obtain ⟨message, hm⟩ := C49_parse_error_display tokens e hp
    simp only [hm]
    exact .syntaxError hs hp hm
  | ok nodes =>
    have hr := program_registers ((parse_ok_iff _ _).1 hp)
    cases ha : assemble nodes with
    | panic => exact (assemble_no_panic hr ha).elim
    | ret out =>
      cases out with
      | error e =>
        simp only [ha]
        exact .semanticError hs hp ha
      | ok ranges =>
        simp only [ha]
        by_cases ho : findOverlappingRanges ranges = []
        · obtain ⟨hex, hh, _⟩ := C44_assembled nodes ranges ha ho
          rw [if_neg (by simp [ho])]
          simp only [hh]
          exact .written hs hp ha ho hh
        · rw [if_pos (by exact List.length_pos_iff.2 ho)]
          obtain ⟨events, he, hpr⟩ := overlapReports_ret (program := program) (pairs := findOverlappingRanges ranges) (by
            rintro ⟨a, b⟩ hm
            obtain ⟨i, j, _, h1, h2, _⟩ := (C40_mem ranges a b).1 hm
            have hb := ranges_bound ha
            have m1 := hb a (List.mem_of_getElem? h1)
            have m2 := hb b (List.mem_of_getElem? h2)
            exact ⟨display_range m1.1 m1.2, display_range m2.1 m2.2⟩)
          rw [he]
          refine .overlap hs hp ha ho ?_
          intro e hm
          simp only [List.cons_append, List.nil_append, List.mem_cons] at hm
          rcases hm with rfl | rfl | hm
          · exact ⟨_, rfl⟩
          · exact ⟨_, rfl⟩
          · exact hpr e hm

/-- What a text describes is what its assembly yields. -/
theorem describes_iff [Target] (input text : Str) (bytes : List (Nat × U8)) : Describes wordBinary input text bytes ↔
    ∃ tokens nodes ranges, scan input text = .ret tokens ∧ parse tokens = .ret (.ok nodes) ∧
      assemble nodes = .ret (.ok ranges) ∧ bytes = image ranges := by
  constructor
  · rintro ⟨tokens, nodes, labels, hl, hp, hv, hw⟩
    obtain ⟨ranges, ha⟩ := (C34_valid nodes).2 ⟨labels, hv⟩
    exact ⟨tokens, nodes, ranges, (scan_iff_lex _ _ _).2 hl, (parse_ok_iff _ _).2 hp, ha,
      (C33_image nodes labels ranges ha hv.labelValues bytes).1 hw⟩
  · rintro ⟨tokens, nodes, ranges, hs, hp, ha, rfl⟩
    obtain ⟨labels, hv⟩ := (C34_valid nodes).1 ⟨ranges, ha⟩
    exact ⟨tokens, nodes, labels, (scan_iff_lex _ _ _).1 hs, (parse_ok_iff _ _).1 hp, hv,
      (C33_image nodes labels ranges ha hv.labelValues _).2 rfl⟩

theorem describes_agree [Target] {input text : Str} (hs : SmallBinaries text) (bytes : List (Nat × U8)) :
    Describes wordBinary input text bytes ↔ Describes trueBinary input text bytes := by
  constructor
  · rintro ⟨tokens, nodes, labels, hl, h⟩
    exact ⟨tokens, nodes, labels, lex_agree (agree_of_small hs) hl, h⟩
  · rintro ⟨tokens, nodes, labels, hl, h⟩
    exact ⟨tokens, nodes, labels, lex_agree (agree_of_small hs).symm hl, h⟩

/-- A run either fails and only prints, or the text describes bytes and their file is written. -/
theorem text_cases [Target] (env : Env) (program input output text : Str) :
    (PrintsOnly (assembleText env program input output text).events ∧
      (assembleText env program input output text).exit = .code 1 ∧
      ¬ ∃ bytes, Describes wordBinary input text bytes ∧ NoCollision bytes) ∨
    ∃ bytes hex, Describes wordBinary input text bytes ∧ NoCollision bytes ∧ HexOf hex bytes ∧
      assembleText env program input output text = writeResult env program output hex := by
  have hone : ∀ message : Str, PrintsOnly [.printed message] := by
    intro m e he
    exact ⟨m, List.mem_singleton.1 he⟩
  generalize ho : assembleText env program input output text = o
  have h := textRun env program input output text
  rw [ho] at h
  have hno : ∀ {tokens nodes}, scan input text = .ret tokens → parse tokens = .ret (.ok nodes) →
      (∀ ranges, assemble nodes = .ret (.ok ranges) → ¬ NoCollision (image ranges)) →
      ¬ ∃ bytes, Describes wordBinary input text bytes ∧ NoCollision bytes := by
    rintro tokens nodes hs hp h ⟨bytes, hd, hc⟩
    obtain ⟨tokens', nodes', ranges', hs', hp', ha', rfl⟩ := (describes_iff _ _ _).1 hd
    cases hs.symm.trans hs'
    cases hp.symm.trans hp'
    exact h ranges' ha' hc
  cases h with
  | syntaxError hs hp hm =>
    refine .inl ⟨hone _, rfl, ?_⟩
    rintro ⟨bytes, hd, _⟩
    obtain ⟨tokens', nodes', ranges', hs', hp', _⟩ := (describes_iff _ _ _).1 hd
    cases hs.symm.trans hs'
    cases hp.symm.trans hp'
  | semanticError hs hp ha =>
    refine .inl ⟨hone _, rfl, hno hs hp ?_⟩
    intro ranges ha'
    cases ha.symm.trans ha'
  | overlap hs hp ha hov he =>
    refine .inl ⟨he, rfl, hno hs hp ?_⟩
    intro ranges ha'
    cases ha.symm.trans ha'
    intro hn
    exact hov ((C41_overlap _ _ ha).2 hn)
  | @written tokens nodes ranges hex hs hp ha hov hh =>
    obtain ⟨hex', h1, h2⟩ := C44_assembled _ _ ha hov
    cases hh.symm.trans h1
    exact .inr ⟨image ranges, hex, (describes_iff _ _ _).2 ⟨tokens, nodes, ranges, hs, hp, ha, rfl⟩,
      (C41_overlap _ _ ha).1 hov, h2, rfl⟩

theorem describes_unique [Target] {input text : Str} {bytes bytes' : List (Nat × U8)} (h : Describes wordBinary input text bytes)
    (h' : Describes wordBinary input text bytes') : bytes = bytes' := by
  obtain ⟨tokens, nodes, ranges, hs, hp, ha, rfl⟩ := (describes_iff _ _ _).1 h
  obtain ⟨tokens', nodes', ranges', hs', hp', ha', rfl⟩ := (describes_iff _ _ _).1 h'
  cases hs.symm.trans hs'
  cases hp.symm.trans hp'
  cases ha.symm.trans ha'
  rfl

/-- Writing with success. -/
theorem writeResult_ok {env : Env} {program output hex : Str} (h : CanWrite env output) :
    writeResult env program output hex =
      ⟨(if output = "-".toList then [] else [.created output]) ++ [.wrote (destination output) (utf8 hex)], .code 0⟩ := by
  obtain ⟨h1, h2⟩ := h
  unfold writeResult
  simp only [destination, utf8Bytes_eq] at h2 ⊢
  by_cases e : output = "-".toList
  · simp [e] at h2 ⊢
    simp [h2]
  · simp only [e, if_false] at h2 ⊢
    simp [h1 e, h2]

/-- Writing ends with a status. -/
theorem writeResult_exit (env : Env) (program output hex : Str) :
    (writeResult env program output hex).exit = .code 0 ∨ (writeResult env program output hex).exit = .code 1 := by
  unfold writeResult
  simp only
  split
  · exact .inr rfl
  · split
    · exact .inl rfl
    · exact .inr rfl

/-- The effects of writing. -/
theorem writeResult_events (env : Env) (program output hex : Str) : ∀ e ∈ (writeResult env program output hex).events,
    (∃ t, e = .printed t) ∨ (e = .created output ∧ output ≠ "-".toList) ∨
      ∃ n, e = .wrote (destination output) ((utf8 hex).take n) := by
  intro e he
  unfold writeResult at he
  simp only [utf8Bytes_eq] at he
  split at he
  · simp only [List.mem_cons, List.not_mem_nil, or_false] at he
    rcases he with rfl | rfl <;> exact .inl ⟨_, rfl⟩
  · rename_i evs hev
    have hevs : ∀ e ∈ evs, e = .created output ∧ output ≠ "-".toList := by
      intro e he
      split at hev
      · cases hev; cases he
      · rename_i hne
        split at hev
        · cases hev
        · cases hev
          exact ⟨List.mem_singleton.1 he, hne⟩
    split at he
    · simp only [List.mem_append, List.mem_singleton] at he
      rcases he with he | rfl
      · exact .inr (.inl (hevs e he))
      · exact .inr (.inr ⟨(utf8 hex).length, by simp [destination]⟩)
    · simp only [List.mem_append, List.mem_cons, List.not_mem_nil, or_false] at he
      rcases he with he | rfl | rfl | rfl
      · exact .inr (.inl (hevs e he))
      · exact .inr (.inr ⟨_, rfl⟩)
      · exact .inl ⟨_, rfl⟩
      · exact .inl ⟨_, rfl⟩

/-- A successful run of the writer has written everything. -/
theorem writeResult_success {env : Env} {program output hex : Str}
    (h : (writeResult env program output hex).exit = .code 0) :
    (writeResult env program output hex).events =
      (if output = "-".toList then [] else [.created output]) ++ [.wrote (destination output) (utf8 hex)] := by
  unfold writeResult at h ⊢
  simp only [utf8Bytes_eq] at h ⊢
  split at h
  · cases h
  · rename_i evs hev
    split at h
    · split at hev
      · rename_i e
        cases hev
        simp [e, destination]
      · rename_i e
        split at hev
        · cases hev
        · cases hev
          simp only [destination, if_neg e]
    · cases h

/-- The object file of a text does not depend on the file system. -/
theorem text_written [Target] {input text : Str} {bytes : List (Nat × U8)} (hd : Describes wordBinary input text bytes)
    (hn : NoCollision bytes) : ∃ hex, HexOf hex bytes ∧
      ∀ env program output, assembleText env program input output text = writeResult env program output hex := by
  obtain ⟨tokens, nodes, ranges, hs, hp, ha, rfl⟩ := (describes_iff _ _ _).1 hd
  have hov := (C41_overlap _ _ ha).2 hn
  obtain ⟨hex, hh, hx⟩ := C44_assembled _ _ ha hov
  refine ⟨hex, hx, fun env program output => ?_⟩
  unfold assembleText
  simp only [hs, hp, ha, hov, hh]
  rw [if_neg (by simp)]

theorem writeResult_status {env : Env} {program output hex : Str} : (writeResult env program output hex).exit = .code 0 ↔
    (output ≠ "-".toList → env.createOutput output = .ok ()) ∧ env.writeOutput (destination output) (utf8 hex) = .ok () := by
  unfold writeResult destination
  simp only [utf8Bytes_eq]
  by_cases ho : output = "-".toList
  · simp only [if_pos ho]
    cases hw : env.writeOutput .stdout (utf8 hex) with
    | error e => simp [ho]
    | ok u => simp [ho]
  · simp only [if_neg ho]
    cases hc : env.createOutput output with
    | error e => exact ⟨fun h => (by cases h), fun h => (by cases h.1 ho)⟩
    | ok u =>
      cases hw : env.writeOutput (.file output) (utf8 hex) with
      | error e => simp
      | ok u => simp

theorem bytesTo_written (output : Str) (bytes : List U8) (events : List Event) (h : ∀ e ∈ events, ∀ d b, e ≠ .wrote d b) :
    bytesTo (destination output) (events ++ ((if output = "-".toList then [] else [.created output]) ++
      [.wrote (destination output) bytes])) = bytes := by
  have h0 : bytesTo (destination output) events = [] := by
    rw [bytesTo, List.flatMap_eq_nil_iff]
    intro e he
    split
    · rename_i d b
      exact (h _ he d b rfl).elim
    · rfl
  have h1 : ∀ (d : Dest) (a b : List Event), bytesTo d (a ++ b) = bytesTo d a ++ bytesTo d b := by
    intro d a b
    simp only [bytesTo, List.flatMap_append]
  rw [h1, h0, h1]
  by_cases e : output = "-".toList
  · rw [if_pos e]
    simp [bytesTo]
  · rw [if_neg e]
    simp [bytesTo]

end C8S
