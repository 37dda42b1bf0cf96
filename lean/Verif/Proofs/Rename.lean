import Verif.Spec.Rewrite
import Verif.Proofs.IsaLabels
import Verif.Proofs.Emit

/- Renaming labels, and replacing them by their values. -/

namespace C8S

open Spec Instruction

/-- The instruction error with the label it names renamed. -/
def renameReason (f : Str → Str) : InstructionError → InstructionError
  | .unableToResolveLabel s => .unableToResolveLabel (f s)
  | e => e

def renameResult {α : Type} (f : Str → Str) : Except InstructionError α → Except InstructionError α
  | .ok x => .ok x
  | .error e => .error (renameReason f e)

section
variable {f : Str → Str} {L L' : LabelMap}

/-- The two maps agree on the label up to renaming. -/
def FollowsLabels (f : Str → Str) (L L' : LabelMap) (x : Field) : Prop := ∀ s, x = .identifier s → L'.get (f s) = L.get s

theorem resolve_agree {s : Str} (h : L'.get (f s) = L.get s) :
    resolveLabelWithMap (f s) L' = renameResult f (resolveLabelWithMap s L) := by
  unfold resolveLabelWithMap
  rw [h]
  cases L.get s <;> rfl

theorem imm8Arm_rename (ctor : U8 → Opcode) (v : U12) : renameResult f (imm8Arm ctor v) = imm8Arm ctor v := by
  unfold imm8Arm numericLiteralTo8BitField
  by_cases h : v.toNat ≤ 0xFF
  · rw [if_pos h]; rfl
  · rw [if_neg h]; rfl

theorem imm8LabelArm_rename {s : Str} (h : L'.get (f s) = L.get s) (ctor : U8 → Opcode) :
    imm8LabelArm ctor (f s) L' = renameResult f (imm8LabelArm ctor s L) := by
  unfold imm8LabelArm
  rw [resolve_agree h]
  cases resolveLabelWithMap s L with
  | ok v => exact (imm8Arm_rename ctor v).symm
  | error e => rfl

theorem imm12LabelArm_rename {s : Str} (h : L'.get (f s) = L.get s) (ctor : U12 → Opcode) :
    imm12LabelArm ctor (f s) L' = renameResult f (imm12LabelArm ctor s L) := by
  unfold imm12LabelArm
  rw [resolve_agree h]
  cases resolveLabelWithMap s L <;> rfl

theorem match1_rename (m : Str) {x : Field} (hx : FollowsLabels f L L' x) :
    match1 m (renameField f x) L' = renameResult f (match1 m x L) := by
  unfold match1
  simp only [apply_ite (renameResult f)]
  cases x with
  | identifier s =>
    have h := resolve_agree (hx s rfl)
    simp only [renameField, h]
    cases resolveLabelWithMap s L <;> simp only [renameResult]
  | _ => rfl

theorem match2_rename (m : Str) {x y : Field} (hy : FollowsLabels f L L' y) :
    match2 m (renameField f x) (renameField f y) L' = renameResult f (match2 m x y L) := by
  unfold match2
  simp only [apply_ite (renameResult f)]
  cases y with
  | identifier s =>
    have h := hy s rfl
    cases x <;> simp only [renameField, imm8LabelArm_rename h, imm12LabelArm_rename h, apply_ite (renameResult f)] <;> rfl
  | numericLiteral v =>
    cases x <;> simp only [renameField, imm8Arm_rename, apply_ite (renameResult f)] <;> rfl
  | _ => cases x <;> rfl

theorem to4_rename (v : U12) (x y : U8) :
    renameResult f (match numericLiteralTo4BitField v with
      | .ok v => .ok (some (.DRW x y v))
      | .error e => .error e) = (match numericLiteralTo4BitField v with
      | .ok v => .ok (some (.DRW x y v))
      | .error e => .error e : Except InstructionError (Option Opcode)) := by
  unfold numericLiteralTo4BitField
  by_cases h : v.toNat ≤ 0xFF
  · rw [if_pos h]
    by_cases h' : v.setWidth 8 < (16 : U8)
    · rw [if_pos h']; rfl
    · rw [if_neg h']; rfl
  · rw [if_neg h]; rfl

theorem match3_rename (m : Str) {x y z : Field} (hz : FollowsLabels f L L' z) :
    match3 m (renameField f x) (renameField f y) (renameField f z) L' = renameResult f (match3 m x y z L) := by
  unfold match3
  by_cases hm : m = "drw".toList
  · rw [if_pos hm, if_pos hm]
    cases x with
    | generalPurposeRegister r =>
      cases y with
      | generalPurposeRegister r' =>
        cases z with
        | numericLiteral v => exact (to4_rename v r r').symm
        | identifier s =>
          simp only [renameField, resolve_agree (hz s rfl)]
          cases resolveLabelWithMap s L with
          | error e => rfl
          | ok v => exact (to4_rename v r r').symm
        | _ => rfl
      | _ => rfl
    | _ => rfl
  · rw [if_neg hm, if_neg hm]
    rfl

theorem rawMatch_rename (m : Str) {fs : List Field} (h : ∀ x ∈ fs, FollowsLabels f L L' x) :
    rawMatch m (fs.map (renameField f)) L' = renameResult f (rawMatch m fs L) := by
  unfold rawMatch
  match fs, h with
  | [], _ => rfl
  | [x], h => exact match1_rename m (h x (by simp))
  | [x, y], h => exact match2_rename m (h y (by simp))
  | [x, y, z], h => exact match3_rename m (h z (by simp))
  | _ :: _ :: _ :: _ :: _, _ => rfl

/-- The outcomes are the same up to label names and the text of unknown operands. -/
inductive SameReason (f : Str → Str) : InstructionError → InstructionError → Prop where
  | unresolved {s : Str} : SameReason f (.unableToResolveLabel s) (.unableToResolveLabel (f s))
  | eightBit {n : Nat} : SameReason f (.expectingEightBitValue n) (.expectingEightBitValue n)
  | fourBit {n : Nat} : SameReason f (.expectingFourBitValue n) (.expectingFourBitValue n)
  | noMatch {m : Str} {d d' : Option Str} : SameReason f (.noMatchingFormat m d) (.noMatchingFormat m d')

inductive SameResult (f : Str → Str) : Except InstructionError Opcode → Except InstructionError Opcode → Prop where
  | ok {op : Opcode} : SameResult f (.ok op) (.ok op)
  | error {e e' : InstructionError} : SameReason f e e' → SameResult f (.error e) (.error e')

theorem sameResult_raw {m : Str} {fs fs' : List Field}
    (h : rawMatch (toLowercase m) fs' L' = renameResult f (rawMatch (toLowercase m) fs L)) :
    SameResult f (fromMnemonicAndParameters m fs L) (fromMnemonicAndParameters m fs' L') := by
  rw [from_eq, from_eq, h]
  cases rawMatch (toLowercase m) fs L with
  | error e =>
    simp only [renameResult]
    refine .error ?_
    cases e with
    | unableToResolveLabel s => exact .unresolved
    | expectingEightBitValue n => exact .eightBit
    | expectingFourBitValue n => exact .fourBit
    | noMatchingFormat m d => exact .noMatch
  | ok o =>
    cases o with
    | none => simp only [renameResult, noMatch_eq]; exact .error .noMatch
    | some op => exact .ok

end

/-! Rewriting statements. -/

/-- Renames labels in definitions and rewrites the operands of instructions. -/
def rewriteNode (f : Str → Str) (h : List Field → List Field) : Node → Node
  | .label l s => .label l (f s)
  | .instruction l m fs => .instruction l m (h fs)
  | .directive l s xs => .directive l s xs

/-- The label map with labels renamed. -/
def renameMap (f : Str → Str) (L : LabelMap) : LabelMap := L.map fun p => (f p.1, p.2)

theorem get_renameMap {f : Str → Str} {L : LabelMap} {s : Str} (h : ∀ p ∈ L, f p.1 = f s → p.1 = s) :
    (renameMap f L).get (f s) = L.get s := by
  unfold renameMap LabelMap.get
  induction L with
  | nil => rfl
  | cons p L ih =>
    obtain ⟨k, v⟩ := p
    simp only [List.map_cons, List.lookup_cons]
    rw [ih fun p hp => h p (List.mem_cons_of_mem _ hp)]
    by_cases hk : s = k
    · subst hk; simp
    · have : f s ≠ f k := fun e => hk (h _ List.mem_cons_self e.symm).symm
      rw [beq_eq_false_iff_ne.2 hk, beq_eq_false_iff_ne.2 this]

section
variable (f : Str → Str) (h : List Field → List Field)

theorem peekConstant_rewrite (ns : List Node) : peekConstant (ns.map (rewriteNode f h)) = peekConstant ns := by
  cases ns with
  | nil => rfl
  | cons n ns => cases n <;> rfl

/-- The outcomes of pass 1 are the same up to label names. -/
inductive SameLabels (f : Str → Str) : Except SemanticError LabelMap → Except SemanticError LabelMap → Prop where
  | ok {L : LabelMap} : SameLabels f (.ok L) (.ok (renameMap f L))
  | error {e e' : SemanticError} : SameError f e e' → SameLabels f (.error e) (.error e')

theorem defineLabelsLoop_rewrite (n : Nat) : ∀ (ns : List Node) (current : U12) (L : LabelMap), ns.length ≤ n →
    (∀ a ∈ L.map Prod.fst ++ labelNames ns, ∀ b ∈ L.map Prod.fst ++ labelNames ns, f a = f b → a = b) →
    SameLabels f (defineLabelsLoop ns current L) (defineLabelsLoop (ns.map (rewriteNode f h)) current (renameMap f L)) := by
  induction n with
  | zero =>
    intro ns current L hl _
    have : ns = [] := List.length_eq_zero_iff.1 (by omega)
    subst this
    exact .ok
  | succ n ih =>
    intro ns current L hl hinj
    cases ns with
    | nil => exact .ok
    | cons m ns =>
      cases m with
      | directive l s xs =>
        have ih' : ∀ current, SameLabels f (defineLabelsLoop ns current L)
            (defineLabelsLoop (ns.map (rewriteNode f h)) current (renameMap f L)) :=
          fun c => ih ns c L (by simp at hl; omega) hinj
        simp only [List.map_cons, rewriteNode]
        rw [defineLabelsLoop.eq_def, defineLabelsLoop.eq_def (.directive l s xs :: ns.map (rewriteNode f h))]
        simp only
        cases Directive.fromIdentifierAndParameters s xs with
        | error e => exact .error .directiveInvalid
        | ok d =>
          simp only
          cases failableInto12 d.size with
          | none => exact .error .directiveTooLarge
          | some size =>
            simp only
            cases checkedAdd current size with
            | none => exact .error .directiveWouldOverflow
            | some c =>
              cases d with
              | org a => exact ih' _
              | db b => exact ih' _
              | equ v => exact .error .constantWithoutLabel
      | label l s =>
        simp only [List.map_cons, rewriteNode]
        rw [defineLabelsLoop.eq_def, defineLabelsLoop.eq_def (.label l (f s) :: ns.map (rewriteNode f h))]
        simp only [peekConstant_rewrite]
        have hs : s ∈ L.map Prod.fst ++ labelNames (.label l s :: ns) := by simp [labelNames]
        have hg : (renameMap f L).get (f s) = L.get s :=
          get_renameMap fun p hp e => hinj _ (List.mem_append_left _ (List.mem_map_of_mem hp)) _ hs e
        rw [hg]
        by_cases hd : (L.get s).isSome
        · rw [if_pos hd, if_pos hd]
          exact .error .redefinition
        · rw [if_neg hd, if_neg hd]
          have hcons : ∀ v, (f s, v) :: renameMap f L = renameMap f ((s, v) :: L) := fun _ => rfl
          have hinj' : ∀ v, ∀ ms, (∀ x ∈ labelNames ms, x ∈ labelNames ns) → ∀ a ∈ (((s, v) :: L : LabelMap)).map Prod.fst ++ labelNames ms,
              ∀ b ∈ (((s, v) :: L : LabelMap)).map Prod.fst ++ labelNames ms, f a = f b → a = b := by
            intro v ms hms
            have hsub : ∀ a ∈ (((s, v) :: L : LabelMap)).map Prod.fst ++ labelNames ms,
                a ∈ L.map Prod.fst ++ labelNames (.label l s :: ns) := by
              intro a ha
              simp only [List.map_cons, List.cons_append, List.mem_cons, List.mem_append] at ha
              simp only [List.mem_append, labelNames, List.mem_cons]
              rcases ha with rfl | ha | ha
              · exact .inr (.inl rfl)
              · exact .inl ha
              · exact .inr (.inr (hms _ ha))
            exact fun a ha b hb => hinj a (hsub a ha) b (hsub b hb)
          cases hp : peekConstant ns with
          | none =>
            simp only [Option.getD_none, hcons]
            have := ih ns current ((s, current) :: L) (by simp at hl; omega) (hinj' current ns fun _ h => h)
            cases ns with
            | nil => exact this
            | cons n ns => exact this
          | some v =>
            cases ns with
            | nil => cases hp
            | cons m ns =>
              simp only [List.map_cons, Option.getD_some, hcons]
              refine ih ns current ((s, v) :: L) (by simp at hl; omega) (hinj' v ns ?_)
              cases m with
              | label l s => cases hp
              | _ => exact fun _ h => h
      | instruction l s fs =>
        simp only [List.map_cons, rewriteNode]
        rw [defineLabelsLoop.eq_def, defineLabelsLoop.eq_def (.instruction l s (h fs) :: ns.map (rewriteNode f h))]
        simp only
        cases checkedAdd current 2 with
        | none => exact .error .instructionWouldOverflow
        | some c => exact ih ns c L (by simp at hl; omega) hinj

/-- The outcomes are the same up to label names and the text of unknown operands. -/
inductive SameOutcome (f : Str → Str) : Run (Except SemanticError (List DataRange)) →
    Run (Except SemanticError (List DataRange)) → Prop where
  | panic : SameOutcome f .panic .panic
  | ok {r : List DataRange} : SameOutcome f (.ret (.ok r)) (.ret (.ok r))
  | error {e e' : SemanticError} : SameError f e e' → SameOutcome f (.ret (.error e)) (.ret (.error e'))

theorem emitLoop_rewrite {L L' : LabelMap} (ns : List Node)
    (hr : ∀ l m fs, .instruction l m fs ∈ ns →
      SameResult f (fromMnemonicAndParameters m fs L) (fromMnemonicAndParameters m (h fs) L')) :
    ∀ (current : DataRange) (ranges : List DataRange),
    SameOutcome f (emitLoop ns L current ranges) (emitLoop (ns.map (rewriteNode f h)) L' current ranges) := by
  induction ns with
  | nil => intro current ranges; exact .ok
  | cons m ns ih =>
    intro current ranges
    have ih := ih fun l m fs hm => hr l m fs (List.mem_cons_of_mem _ hm)
    cases m with
    | directive l s xs =>
      simp only [List.map_cons, rewriteNode]
      rw [emitLoop.eq_def, emitLoop.eq_def (.directive l s xs :: ns.map (rewriteNode f h))]
      simp only
      cases Directive.fromIdentifierAndParameters s xs with
      | error e => exact .panic
      | ok d =>
        cases d with
        | org a => exact ih _ _
        | db b =>
          simp only
          cases appendAsserted current (Directive.db b).intoVec with
          | panic => exact .panic
          | ret c => exact ih _ _
        | equ v =>
          simp only
          cases appendAsserted current (Directive.equ v).intoVec with
          | panic => exact .panic
          | ret c => exact ih _ _
    | label l s => exact ih _ _
    | instruction l s fs =>
      simp only [List.map_cons, rewriteNode]
      rw [emitLoop.eq_def, emitLoop.eq_def (.instruction l s (h fs) :: ns.map (rewriteNode f h))]
      simp only
      have := hr l s fs List.mem_cons_self
      generalize fromMnemonicAndParameters s fs L = r at this
      generalize fromMnemonicAndParameters s (h fs) L' = r' at this
      cases this with
      | error he => cases he <;> exact .error (by constructor)
      | ok =>
        rename_i i
        simp only
        cases Instruction.intoVec i with
        | panic => exact .panic
        | ret bytes =>
          simp only
          cases appendAsserted current bytes with
          | panic => exact .panic
          | ret c => exact ih _ _

end

theorem assemble_rewrite (f : Str → Str) (h : List Field → List Field) (ns : List Node)
    (hinj : ∀ a ∈ labelNames ns, ∀ b ∈ labelNames ns, f a = f b → a = b)
    (hr : ∀ L, defineLabels ns = .ok L → ∀ l m fs, .instruction l m fs ∈ ns →
      SameResult f (fromMnemonicAndParameters m fs L) (fromMnemonicAndParameters m (h fs) (renameMap f L))) :
    SameOutcome f (assemble ns) (assemble (ns.map (rewriteNode f h))) := by
  unfold assemble
  have h1 := defineLabelsLoop_rewrite f h ns.length ns 0 [] (Nat.le_refl _) (by simpa using hinj)
  change SameLabels f (defineLabels ns) (defineLabels _) at h1
  generalize ho : defineLabels ns = o at h1
  generalize defineLabels (ns.map (rewriteNode f h)) = o' at h1
  cases h1 with
  | error he => exact .error he
  | ok =>
    exact emitLoop_rewrite f h ns (hr _ ho) _ _

theorem SameOutcome.ok_iff {f : Str → Str} {a b : Run (Except SemanticError (List DataRange))} (h : SameOutcome f a b)
    (r : List DataRange) : a = .ret (.ok r) ↔ b = .ret (.ok r) := by
  cases h with
  | panic => rfl
  | ok => rfl
  | error _ => constructor <;> intro h <;> cases h

theorem SameOutcome.error_of {f : Str → Str} {a b : Run (Except SemanticError (List DataRange))} (h : SameOutcome f a b)
    {e : SemanticError} (he : a = .ret (.error e)) : ∃ e', b = .ret (.error e') ∧ SameError f e e' := by
  cases h with
  | panic => cases he
  | ok => cases he
  | error h => cases he; exact ⟨_, rfl, h⟩

end C8S
