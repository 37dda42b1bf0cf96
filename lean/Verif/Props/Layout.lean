import Verif.Proofs.Valid
import Verif.Props.DataRange

/-
Properties of the two assembler passes: C29 to C34, C36, C37, C41 and C51.
-/

namespace C8S

open Spec

/-! Statements used in the examples. -/

namespace LayoutExample

def loc : Loc := ⟨[], 1, 0, 0⟩

/-- `.org $200` -/
def org200 : Node := .directive loc "org".toList [.numeric 0x200]

/-- `.db 7` -/
def db7 : Node := .directive loc "db".toList [.numeric 7]

/-- `.equ 5` -/
def equ5 : Node := .directive loc "equ".toList [.numeric 5]

def here : Node := .label loc "here".toList

def limit : Node := .label loc "limit".toList

/-- `jp here` -/
def jpHere : Node := .instruction loc "jp".toList [.identifier "here".toList]

def program : List Node := [org200, db7, limit, equ5, here, jpHere]

theorem org200_means : DirectiveMeans "org".toList [.numeric 0x200] (.org 0x200) := means_iff.1 rfl

theorem db7_means : DirectiveMeans "db".toList [.numeric 7] (.db [7]) := means_iff.1 rfl

theorem equ5_means : DirectiveMeans "equ".toList [.numeric 5] (.equ 5) := means_iff.1 rfl

theorem assembled : assemble program = .ret (.ok [⟨0x200, [7, 0x12, 0x01]⟩]) := by rfl

end LayoutExample

open LayoutExample

/-- C29: after a successful first pass the map gives each label its value, as specified from the source alone, and
holds nothing else. -/
theorem C29_labels (nodes : List Node) (labels : LabelMap) (h : defineLabels nodes = .ok labels) (name : Str) (v : U12) :
    labels.get name = some v ↔ LabelValue nodes name v := (defineLabels_ok h).2 name v

example : LabelValue program "here".toList 0x201 :=
  (C29_labels program [("here".toList, 0x201), ("limit".toList, 5)] rfl _ _).1 rfl

/-- C29: in an assembled program the value of a label not followed by a constant is the address of the first byte
emitted after it before any `.org`. -/
theorem C29_first_byte (pre mid post : List Node) (loc : Loc) (name : Str) (n : Node) (labels : LabelMap) (b : U8)
    (bs : List U8) (ranges : List DataRange)
    (h : assemble (pre ++ .label loc name :: (mid ++ n :: post)) = .ret (.ok ranges))
    (hl : defineLabels (pre ++ .label loc name :: (mid ++ n :: post)) = .ok labels)
    (hc : ∀ c, ¬ ConstantNext (mid ++ n :: post) c) (hmid : ∀ m ∈ mid, Emits labels m [])
    (hn : Emits labels n (b :: bs)) :
    ∃ v, labels.get name = some v ∧ (v.toNat, b) ∈ image ranges := by
  obtain ⟨hclean, hlab⟩ := defineLabels_ok hl
  obtain ⟨labels', secs, -, hlab', hs, rfl⟩ := assemble_ok_iff.1 h
  replace hs := sections_congr (labelsOf_congr hlab' hlab) hs
  have hw := sections_image hs
  rw [image_nonEmpty]
  obtain ⟨v, hv⟩ := valueHere_exists (post := mid ++ n :: post) (clean_prefix hclean)
  refine ⟨v, (hlab name v).2 (labelValue_iff.2 ⟨_, _, _, rfl, hv⟩), ?_⟩
  rcases hv with hv | ⟨-, hv⟩
  · exact (hc _ hv).elim
  obtain ⟨w1, w2, e, _, h2⟩ := writes_append hv hw
  rw [e]
  clear e
  refine List.mem_append_right _ ?_
  cases h2 with
  | emit he h2 =>
    cases he
    simp only [placeAt, List.nil_append, List.length_nil, Nat.add_zero] at h2 ⊢
    clear hc hlab hlab' hs hw hv h hl hclean
    rename_i ws
    induction mid generalizing ws with
    | nil =>
      cases h2 with
      | org hm _ => exact (emits_not_org hn hm).elim
      | emit he _ => cases emits_unique hn he; simp [placeAt]
    | cons m mid ih =>
      have hm := hmid m List.mem_cons_self
      cases h2 with
      | org ho _ => exact (emits_not_org hm ho).elim
      | emit he h2 =>
        cases emits_unique hm he
        simpa [placeAt] using ih (fun x hx => hmid x (List.mem_cons_of_mem _ hx)) h2

example : ∃ labels, defineLabels program = .ok labels ∧ labels.get "here".toList = some 0x201 ∧
    labels.get "limit".toList = some 5 ∧ labels.get "HERE".toList = none := ⟨_, rfl, rfl, rfl, rfl⟩

example : ∃ labels, defineLabels ([org200, db7, limit, equ5] ++ here :: ([] ++ jpHere :: [])) = .ok labels ∧
    (∀ c, ¬ ConstantNext ([] ++ jpHere :: []) c) ∧ Emits labels jpHere (0x12 :: [0x01]) := by
  refine ⟨_, rfl, ?_, ?_⟩
  · intro c hc
    cases hc
  · obtain ⟨hi, lo, hb, he⟩ := (bytes_iff (labels := [("here".toList, 0x201), ("limit".toList, 5)])
      (m := "jp".toList) (fields := [.identifier "here".toList])).1 ⟨.JP 0x201, rfl, rfl⟩
    cases hb
    exact .instruction he

/-- C30: a program that defines a label name twice does not assemble. -/
theorem C30_duplicates (p q r : List Node) (loc loc' : Loc) (name : Str) (ranges : List DataRange) :
    assemble (p ++ .label loc name :: (q ++ .label loc' name :: r)) ≠ .ret (.ok ranges) := by
  intro h
  obtain ⟨_, _, hc, _⟩ := assemble_ok_iff.1 h
  refine hc (p ++ .label loc name :: q) (.label loc' name) r (by simp) _ (.redefined (loc' := loc) ?_)
  simp

example (ranges : List DataRange) : assemble [here, jpHere, here, db7] ≠ .ret (.ok ranges) :=
  C30_duplicates [] [jpHere] [db7] loc loc _ _

/-- C30: a redefinition is reported only for a name with an earlier definition, at the later one. -/
theorem C30_reported (nodes : List Node) (hr : FourBitProgram nodes) (loc' : Loc) (name : Str)
    (h : assemble nodes = .ret (.error (.redefinitionOfLabel loc' name))) :
    ∃ p q r loc, nodes = p ++ .label loc name :: (q ++ .label loc' name :: r) := by
  rcases (assemble_error_iff hr).1 h with ⟨pre, n, post, rfl, hc, hf⟩ | ⟨_, _, _, _, _, _, _, _, _, _, _, he⟩
  · cases hf with
    | redefined hm =>
      obtain ⟨p, q, rfl⟩ := List.append_of_mem hm
      exact ⟨p, q, post, _, List.append_assoc ..⟩
  · simp at he

example : FourBitProgram [here, jpHere, here] ∧
    assemble [here, jpHere, here] = .ret (.error (.redefinitionOfLabel loc "here".toList)) := by
  refine ⟨?_, by rfl⟩
  intro l m f hm r hr
  simp [here, jpHere] at hm
  rw [hm.2.2] at hr
  simp at hr

/-- C30: without another fault before it, the second definition is what is reported. -/
theorem C30_exact (pre post : List Node) (loc loc' : Loc) (name : Str) (hc : Clean pre) (hm : .label loc name ∈ pre) :
    assemble (pre ++ .label loc' name :: post) = .ret (.error (.redefinitionOfLabel loc' name)) := by
  have := defineLabels_error_iff.2 ⟨pre, _, post, rfl, hc, Faulty.redefined (loc := loc') hm⟩
  simp [assemble, this]

example : assemble [here, jpHere, here] = .ret (.error (.redefinitionOfLabel loc "here".toList)) := by rfl

example : Clean [here, jpHere] ∧ Node.label loc "here".toList ∈ [here, jpHere] :=
  ⟨(defineLabels_ok (labels := [("here".toList, 0)]) rfl).1, List.mem_cons_self⟩

example : ∃ ranges, assemble [.label loc "HERE".toList, here, jpHere] = .ret (.ok ranges) := ⟨_, rfl⟩

/-- C31: every assembled byte is at an address below $FFF. -/
theorem C31_in_memory (nodes : List Node) (ranges : List DataRange) (h : assemble nodes = .ret (.ok ranges)) :
    ∀ a b, (a, b) ∈ image ranges → a < 0xFFF := by
  intro a b hm
  obtain ⟨labels, secs, hc, _, hs, rfl⟩ := assemble_ok_iff.1 h
  rw [image_nonEmpty] at hm
  obtain ⟨p, q, c, rfl, hr, hlt⟩ := writes_bound (sections_image hs) a b hm
  have := clean_fits (clean_prefix hc) hr
  omega

example (a : Nat) (b : U8) (h : (a, b) ∈ image [⟨0x200, [7, 0x12, 0x01]⟩]) : a < 0xFFF :=
  C31_in_memory _ _ assembled a b h

/-- The address counter of the program passes $FFF at a statement, and no earlier statement is at fault. -/
def PassesEnd (nodes : List Node) : Prop :=
  ∃ pre n post a b, nodes = pre ++ n :: post ∧ Clean pre ∧ Reaches pre 0 a ∧ Moves n a b ∧ 0xFFF < b

/-- C31: a program is rejected as too large or overflowing exactly when its address counter passes $FFF before
another fault. -/
theorem C31_rejected (nodes : List Node) (hr : FourBitProgram nodes) :
    (∃ loc, assemble nodes = .ret (.error (.instructionWouldOverflow loc)) ∨
      ∃ d, assemble nodes = .ret (.error (.directiveWouldOverflow loc d)) ∨
        assemble nodes = .ret (.error (.directiveTooLarge loc d))) ↔ PassesEnd nodes := by
  constructor
  · intro h
    have key : ∀ e, (∀ loc reason, e ≠ .assemblyFailed loc reason) → (∀ loc reason, e ≠ .directiveInvalid loc reason) →
        (∀ loc, e ≠ .constantWithoutLabel loc) → (∀ loc name, e ≠ .redefinitionOfLabel loc name) →
        assemble nodes = .ret (.error e) → PassesEnd nodes := by
      intro e h1 h2 h3 h4 he
      rcases (assemble_error_iff hr).1 he with ⟨pre, n, post, rfl, hc, hf⟩ | ⟨_, _, _, _, _, _, _, _, _, _, _, he⟩
      · obtain ⟨a, ha, _⟩ := clean_reaches pre hc
        cases hf with
        | invalid => exact (h2 _ _ rfl).elim
        | tooLarge hm hl => exact ⟨pre, _, post, a, _, rfl, hc, ha, .db hm, by omega⟩
        | overflow hm _ hr' hl => exact ⟨pre, _, post, _, _, rfl, hc, hr', .db hm, hl⟩
        | stray => exact (h3 _ rfl).elim
        | redefined => exact (h4 _ _ rfl).elim
        | instructionOverflow hr' hl => exact ⟨pre, _, post, _, _, rfl, hc, hr', .instruction, hl⟩
      · exact (h1 _ _ he.2).elim
    rcases h with ⟨loc, h | ⟨d, h | h⟩⟩
    all_goals exact key _ (by simp) (by simp) (by simp) (by simp) h
  · rintro ⟨pre, n, post, a, b, rfl, hc, ha, hm, hb⟩
    have key : ∀ e, Faulty pre n e → assemble (pre ++ n :: post) = .ret (.error e) := fun e he =>
      (assemble_error_iff hr).2 (.inl ⟨pre, n, post, rfl, hc, he⟩)
    cases hm with
    | org => rename_i v _; have := v.isLt; omega
    | @db loc name args bytes _ hm =>
      refine ⟨loc, .inr ⟨.db bytes, ?_⟩⟩
      by_cases hl : 0xFFF < bytes.length
      · exact .inr (key _ (.tooLarge hm hl))
      · exact .inl (key _ (.overflow hm (by omega) ha hb))
    | equ => have := clean_fits hc ha; omega
    | label => have := clean_fits hc ha; omega
    | @instruction loc _ _ _ => exact ⟨loc, .inl (key _ (.instructionOverflow ha hb))⟩

/-- Data that reaches the last address. -/
example : PassesEnd [.directive loc "org".toList [.numeric 0xFFF], db7] ∧
    FourBitProgram [.directive loc "org".toList [.numeric 0xFFF], db7] ∧
    assemble [.directive loc "org".toList [.numeric 0xFFF], db7] = .ret (.error (.directiveWouldOverflow loc (.db [7]))) := by
  have hm : DirectiveMeans "org".toList [.numeric 0xFFF] (.org 0xFFF) := means_iff.1 rfl
  refine ⟨⟨[.directive loc "org".toList [.numeric 0xFFF]], db7, [], 0xFFF, 0x1000, rfl,
    (defineLabels_ok (labels := []) rfl).1, .cons (.org hm) .nil, .db db7_means, by decide⟩, ?_, by rfl⟩
  intro l m f h
  simp [db7] at h

/-- C31: the byte at $FFF cannot be emitted: even a single byte there is rejected. -/
theorem C31_last_byte (loc loc' : Loc) (b : U8) :
    assemble [.directive loc "org".toList [.numeric 0xFFF], .directive loc' "db".toList [.numeric b.toNat]]
      = .ret (.error (.directiveWouldOverflow loc' (.db [b]))) := by
  have h1 : DirectiveMeans "org".toList [.numeric 0xFFF] (.org 0xFFF) := means_iff.1 rfl
  have h2 : DirectiveMeans "db".toList [.numeric b.toNat] (.db [b]) :=
    .db (by decide) (by simp) (.number .nil)
  have hc : Clean [.directive loc "org".toList [.numeric 0xFFF]] :=
    (defineLabels_ok (labels := []) rfl).1
  have := defineLabels_error_iff.2 ⟨_, _, [], rfl, hc,
    Faulty.overflow (loc := loc') h2 (by simp) (reaches_single.2 (.org h1)) (by simp)⟩
  simp only [List.cons_append, List.nil_append] at this
  simp only [assemble, this]

example : FourBitProgram [org200, .instruction loc "cls".toList []] := by
  intro l m f hm
  simp [org200] at hm
  obtain ⟨_, _, rfl⟩ := hm
  intro r hr
  cases hr

/-- C32: when the first pass accepts the program, the second pass does not panic and can fail only on an instruction
that does not assemble. -/
theorem C32_passes_agree (nodes : List Node) (labels : LabelMap) (hr : FourBitProgram nodes)
    (h : defineLabels nodes = .ok labels) :
    (∃ ranges, emitDataRanges nodes labels = .ret (.ok ranges)) ∨
    ∃ loc m fields reason, .instruction loc m fields ∈ nodes ∧ InstructionFails labels m fields reason ∧
      emitDataRanges nodes labels = .ret (.error (.assemblyFailed loc reason)) := by
  have ha : assemble nodes = emitDataRanges nodes labels := by simp [assemble, h]
  cases he : emitDataRanges nodes labels with
  | panic => exact (assemble_no_panic hr (ha.trans he)).elim
  | ret r =>
    cases r with
    | ok ranges => exact .inl ⟨ranges, rfl⟩
    | error e =>
      right
      rcases (assemble_error_iff hr).1 (ha.trans he) with h' | ⟨labels', pre, loc, m, fields, post, reason, hc, hl, h'⟩
      · rw [defineLabels_error_iff.2 h'] at h
        cases h
      · obtain ⟨rfl, _, hf, rfl⟩ := h'
        exact ⟨loc, m, fields, reason, by simp,
          instructionFails_congr (labelsOf_congr hl (defineLabels_ok h).2) hf, rfl⟩

example : ∃ labels, defineLabels [.instruction loc "jp".toList [.identifier "x".toList]] = .ok labels ∧
    emitDataRanges [.instruction loc "jp".toList [.identifier "x".toList]] labels
      = .ret (.error (.assemblyFailed loc (.unableToResolveLabel "x".toList))) := ⟨_, rfl, rfl⟩

/-- C33: the addressed bytes of the assembled ranges are those of the statements, in source order, each at its
address, and these are uniquely determined by the source. -/
theorem C33_image (nodes : List Node) (labels : LabelMap) (ranges : List DataRange)
    (h : assemble nodes = .ret (.ok ranges)) (hl : LabelsOf nodes labels) (ws : List (Nat × U8)) :
    Writes labels nodes 0 ws ↔ ws = image ranges := by
  obtain ⟨labels', secs, _, hl', hs, rfl⟩ := assemble_ok_iff.1 h
  have hw := sections_image (sections_congr (labelsOf_congr hl' hl) hs)
  rw [image_nonEmpty]
  exact ⟨fun h => writes_unique h hw, fun h => h ▸ hw⟩

example (labels : LabelMap) (hl : LabelsOf program labels) :
    Writes labels program 0 [(0x200, 7), (0x201, 0x12), (0x202, 0x01)] :=
  (C33_image _ _ _ assembled hl _).2 rfl

/-- C33: such a map of labels exists. -/
theorem C33_labels (nodes : List Node) (ranges : List DataRange) (h : assemble nodes = .ret (.ok ranges)) :
    ∃ labels, LabelsOf nodes labels ∧ Writes labels nodes 0 (image ranges) := by
  obtain ⟨labels, _, _, hl, _⟩ := assemble_ok_iff.1 h
  exact ⟨labels, hl, (C33_image nodes labels ranges h hl _).2 rfl⟩

example : ∃ labels, LabelsOf program labels ∧ Writes labels program 0 [(0x200, 7), (0x201, 0x12), (0x202, 0x01)] :=
  C33_labels _ _ assembled

example : image [⟨0x200, [7, 0x12, 0x01]⟩] = [(0x200, 7), (0x201, 0x12), (0x202, 0x01)] := by decide

/-- C34: assembly succeeds exactly on valid programs. -/
theorem C34_valid (nodes : List Node) :
    (∃ ranges, assemble nodes = .ret (.ok ranges)) ↔ ∃ labels, Valid nodes labels := by
  constructor
  · rintro ⟨ranges, h⟩
    obtain ⟨labels, secs, hc, hl, hs, _⟩ := assemble_ok_iff.1 h
    exact ⟨labels, valid_iff.2 ⟨hc, hl, sections_instructions hs⟩⟩
  · rintro ⟨labels, h⟩
    obtain ⟨hc, hl, hi⟩ := valid_iff.1 h
    obtain ⟨secs, hs⟩ := sections_exist nodes h.directives hi 0
    exact ⟨_, assemble_ok_iff.2 ⟨labels, secs, hc, hl, hs, rfl⟩⟩

/-- C34: every other program the parser can produce is rejected with an error. -/
theorem C34_invalid (nodes : List Node) (hr : FourBitProgram nodes) (h : ∀ labels, ¬ Valid nodes labels) :
    ∃ e, assemble nodes = .ret (.error e) := by
  cases ha : assemble nodes with
  | panic => exact (assemble_no_panic hr ha).elim
  | ret r =>
    cases r with
    | ok ranges =>
      obtain ⟨labels, hv⟩ := (C34_valid nodes).1 ⟨ranges, ha⟩
      exact (h labels hv).elim
    | error e => exact ⟨e, rfl⟩

example : FourBitProgram [here, here] ∧ ∀ labels, ¬ Valid [here, here] labels := by
  refine ⟨?_, fun labels h => ?_⟩
  · intro l m f h
    simp [here] at h
  · have := h.unique
    simp [here, labelNames] at this

example : ∃ labels, Valid program labels := (C34_valid program).1 ⟨_, assembled⟩

/-- C36: a program with a constant that does not directly follow a label does not assemble. -/
theorem C36_stray (pre post : List Node) (loc : Loc) (name : Str) (args : List Literal) (ranges : List DataRange)
    (hn : SameLetters name "equ".toList) (hp : ¬ EndsWithLabel pre) :
    assemble (pre ++ .directive loc name args :: post) ≠ .ret (.ok ranges) := by
  intro h
  obtain ⟨_, _, hc, _⟩ := assemble_ok_iff.1 h
  obtain ⟨d, hd⟩ := clean_directives hc loc name args (by simp)
  cases hd with
  | org a ho => exact absurd (hn.symm.trans ho) (by decide)
  | equ v _ => exact hc pre _ post rfl _ (.stray (.equ v hn) hp)
  | db ho _ _ => exact absurd (hn.symm.trans ho) (by decide)

example (ranges : List DataRange) : assemble ([org200] ++ .directive loc "EQU".toList [.string "a".toList] :: [db7]) ≠ .ret (.ok ranges) := by
  refine C36_stray _ _ _ _ _ _ (by decide) ?_
  rintro ⟨p, l, n, h⟩
  have := congrArg List.getLast? h
  simp [org200] at this

/-- C36: with no earlier fault and a valid argument, it is reported at its own location. -/
theorem C36_reported (pre post : List Node) (loc : Loc) (name : Str) (v : U12)
    (hn : SameLetters name "equ".toList) (hp : ¬ EndsWithLabel pre) (hc : Clean pre) :
    assemble (pre ++ .directive loc name [.numeric v.toNat] :: post) = .ret (.error (.constantWithoutLabel loc)) := by
  have := defineLabels_error_iff.2 ⟨pre, _, post, rfl, hc, Faulty.stray (loc := loc) (.equ v hn) hp⟩
  simp only [assemble, this]

/-- C36: with no earlier fault, the report has its location whatever its arguments are: that there is no label if they
are valid, and otherwise what is wrong with them. -/
theorem C36_located (pre post : List Node) (loc : Loc) (name : Str) (args : List Literal)
    (hn : SameLetters name "equ".toList) (hp : ¬ EndsWithLabel pre) (hc : Clean pre) :
    ((∃ v : U12, args = [.numeric v.toNat]) ∧
      assemble (pre ++ .directive loc name args :: post) = .ret (.error (.constantWithoutLabel loc))) ∨
    ∃ reason, DirectiveFails name args reason ∧
      assemble (pre ++ .directive loc name args :: post) = .ret (.error (.directiveInvalid loc reason)) := by
  rcases directive_total name args with ⟨d, hm⟩ | ⟨reason, hf⟩
  · cases hm with
    | org a ho => exact absurd (hn.symm.trans ho) (by decide)
    | equ v _ => exact .inl ⟨⟨v, rfl⟩, C36_reported pre post loc name v hn hp hc⟩
    | db ho _ _ => exact absurd (hn.symm.trans ho) (by decide)
  · refine .inr ⟨reason, hf, ?_⟩
    have := defineLabels_error_iff.2 ⟨pre, _, post, rfl, hc, Faulty.invalid (loc := loc) hf⟩
    simp only [assemble, this]

example : ¬ EndsWithLabel [here, jpHere] ∧ Clean [here, jpHere] := by
  refine ⟨?_, (defineLabels_ok (labels := [("here".toList, 0)]) rfl).1⟩
  rintro ⟨p, l, n, h⟩
  have := congrArg List.getLast? h
  simp [jpHere] at this

example : assemble [here, jpHere, equ5] = .ret (.error (.constantWithoutLabel loc)) := by rfl

/-- C37: the ranges are the non-empty sections, in source order, each starting at the address of its `.org` (0 for
the statements before the first). -/
theorem C37_sections (nodes : List Node) (labels : LabelMap) (ranges : List DataRange)
    (h : assemble nodes = .ret (.ok ranges)) (hl : LabelsOf nodes labels) :
    ∃ secs, Sections labels 0 nodes secs ∧ ranges = secs.filter (fun r => decide (r.data ≠ [])) := by
  obtain ⟨labels', secs, _, hl', hs, rfl⟩ := assemble_ok_iff.1 h
  exact ⟨secs, sections_congr (labelsOf_congr hl' hl) hs, rfl⟩

/-- Two of the three sections are empty. -/
example : ∃ secs, Sections [] 0 [org200, org200, db7] secs ∧
    [(⟨0x200, [7]⟩ : DataRange)] = secs.filter fun r => decide (r.data ≠ []) :=
  C37_sections _ _ _ rfl (defineLabels_ok rfl).2

/-- C37: no range is empty. -/
theorem C37_nonempty (nodes : List Node) (ranges : List DataRange) (h : assemble nodes = .ret (.ok ranges)) :
    ∀ r ∈ ranges, r.data ≠ [] := fun r hr => (ranges_bound h r hr).1

example : ∀ r ∈ ([⟨0, [7]⟩, ⟨0x200, [7, 7]⟩] : List DataRange), r.data ≠ [] :=
  C37_nonempty [db7, org200, org200, db7, db7] _ rfl

/-- The start addresses of the sections: 0, then the address of each `.org`. -/
inductive SectionStarts : List Node → List U12 → Prop where
  | nil : SectionStarts [] []
  | org {loc : Loc} {name : Str} {args : List Literal} {v : U12} {ns : List Node} {vs : List U12} :
    DirectiveMeans name args (.org v) → SectionStarts ns vs → SectionStarts (.directive loc name args :: ns) (v :: vs)
  | other {n : Node} {ns : List Node} {vs : List U12} :
    (∀ loc name args v, n = .directive loc name args → ¬ DirectiveMeans name args (.org v)) →
    SectionStarts ns vs → SectionStarts (n :: ns) vs

/-- C37: the start addresses of the ranges are among 0 and the `.org` addresses, in source order. -/
theorem C37_starts (nodes : List Node) (ranges : List DataRange) (h : assemble nodes = .ret (.ok ranges)) :
    ∃ vs, SectionStarts nodes vs ∧ (ranges.map DataRange.startAddress).Sublist (0 :: vs) := by
  obtain ⟨labels, secs, _, _, hs, rfl⟩ := assemble_ok_iff.1 h
  have key : ∀ start nodes secs, Sections labels start nodes secs →
      ∃ vs, SectionStarts nodes vs ∧ secs.map DataRange.startAddress = start :: vs := by
    intro start nodes secs h
    induction h with
    | nil => exact ⟨[], .nil, rfl⟩
    | org hm _ ih =>
      obtain ⟨vs, h1, h2⟩ := ih
      exact ⟨_, .org hm h1, by simp [h2]⟩
    | emit he _ ih =>
      obtain ⟨vs, h1, h2⟩ := ih
      refine ⟨vs, .other ?_ h1, by simpa using h2⟩
      rintro loc name args v rfl hm
      exact emits_not_org he hm
  obtain ⟨vs, h1, h2⟩ := key _ _ _ hs
  exact ⟨vs, h1, h2 ▸ List.Sublist.map _ List.filter_sublist⟩

example : assemble [db7, org200, org200, db7, db7] = .ret (.ok [⟨0, [7]⟩, ⟨0x200, [7, 7]⟩]) := by rfl

/-- C41: for an assembled program the overlap listing is empty exactly when no address receives two bytes. -/
theorem C41_overlap (nodes : List Node) (ranges : List DataRange) (h : assemble nodes = .ret (.ok ranges)) :
    findOverlappingRanges ranges = [] ↔ ((image ranges).map Prod.fst).Nodup := by
  rw [image_nodup]
  exact C40_empty_iff ranges fun r hr => by have := (ranges_bound h r hr).2; omega

example : assemble [org200, db7, org200, db7] = .ret (.ok [⟨0x200, [7]⟩, ⟨0x200, [7]⟩]) ∧
    findOverlappingRanges [⟨0x200, [7]⟩, ⟨0x200, [7]⟩] ≠ [] := ⟨rfl, by decide⟩

/-- C51: the first pass fails exactly at the first statement with a layout fault, and reports that fault. -/
theorem C51_first_fault (nodes : List Node) (e : SemanticError) : defineLabels nodes = .error e ↔
    ∃ pre n post, nodes = pre ++ n :: post ∧ Clean pre ∧ Faulty pre n e := defineLabels_error_iff

example : ∃ pre n post, [here, here, equ5] = pre ++ n :: post ∧ Clean pre ∧
    Faulty pre n (.redefinitionOfLabel loc "here".toList) := (C51_first_fault _ _).1 rfl

/-- C51: assembling reports an error exactly when there is a first statement with a layout fault, or there is none and
there is a first instruction that cannot be encoded; and it reports that fault. -/
theorem C51_error_iff (nodes : List Node) (hr : FourBitProgram nodes) (e : SemanticError) :
    assemble nodes = .ret (.error e) ↔
      (∃ pre n post, nodes = pre ++ n :: post ∧ Clean pre ∧ Faulty pre n e) ∨
      (∃ labels pre loc m fields post reason, Clean nodes ∧ LabelsOf nodes labels ∧
        nodes = pre ++ .instruction loc m fields :: post ∧
        (∀ l m f, .instruction l m f ∈ pre → ∃ w, Encodes labels m f w) ∧
        InstructionFails labels m fields reason ∧ e = .assemblyFailed loc reason) := assemble_error_iff hr

example : assemble [.instruction loc "cls".toList [], .instruction loc "jp".toList [.identifier "a".toList],
    .instruction loc "nope".toList []] = .ret (.error (.assemblyFailed loc (.unableToResolveLabel "a".toList))) := by rfl

/-- C51: the report does not depend on what follows the statement. -/
theorem C51_local (nodes : List Node) (e : SemanticError) (h : defineLabels nodes = .error e) :
    ∃ pre n post, nodes = pre ++ n :: post ∧ Clean pre ∧
      ∀ post', assemble (pre ++ n :: post') = .ret (.error e) := by
  obtain ⟨pre, n, post, rfl, hc, hf⟩ := defineLabels_error_iff.1 h
  refine ⟨pre, n, post, rfl, hc, fun post' => ?_⟩
  have := defineLabels_error_iff.2 ⟨pre, n, post', rfl, hc, hf⟩
  simp only [assemble, this]

example : ∃ pre n post, [here, here, equ5] = pre ++ n :: post ∧ Clean pre ∧
    ∀ post', assemble (pre ++ n :: post') = .ret (.error (.redefinitionOfLabel loc "here".toList)) :=
  C51_local _ _ rfl

/-- C51: there is at most one first fault, and at most one report for it. -/
theorem C51_unique (p p' q q' : List Node) (n n' : Node) (e e' : SemanticError)
    (h : p ++ n :: q = p' ++ n' :: q') (hc : Clean p) (hf : Faulty p n e) (hc' : Clean p') (hf' : Faulty p' n' e') :
    p = p' ∧ n = n' ∧ q = q' ∧ e = e' := first_fault_unique h hc hf hc' hf'

example : defineLabels [here, here, equ5] = .error (.redefinitionOfLabel loc "here".toList) ∧
    defineLabels [here, here, jpHere, equ5] = .error (.redefinitionOfLabel loc "here".toList) := ⟨rfl, rfl⟩

end C8S
