import Verif.Spec.Layout
import Verif.Proofs.Directive
import Verif.Proofs.IsaLabels

/- Lemmas on the first pass against the layout specification. -/

namespace C8S

open Spec

/-! ### Directives -/

theorem means_iff {name : Str} {args : List Literal} {d : Directive} :
    Directive.fromIdentifierAndParameters name args = .ok d ↔ DirectiveMeans name args d := by
  refine ⟨fun h => ?_, directive_means⟩
  rcases directive_total name args with ⟨d', h'⟩ | ⟨e, h'⟩
  · rw [directive_means h'] at h
    injection h with h
    exact h ▸ h'
  · rw [directive_fails h'] at h
    injection h

theorem fails_iff {name : Str} {args : List Literal} {e : DirectiveError} :
    Directive.fromIdentifierAndParameters name args = .error e ↔ DirectiveFails name args e := by
  refine ⟨fun h => ?_, directive_fails⟩
  rcases directive_total name args with ⟨d', h'⟩ | ⟨e, h'⟩
  · rw [directive_means h'] at h
    injection h
  · rw [directive_fails h'] at h
    injection h with h
    exact h ▸ h'

theorem means_unique {name : Str} {args : List Literal} {d d' : Directive} (h : DirectiveMeans name args d)
    (h' : DirectiveMeans name args d') : d = d' := by
  have := directive_means h
  rw [directive_means h'] at this
  injection this with this
  exact this.symm

theorem not_means_and_fails {name : Str} {args : List Literal} {d : Directive} {e : DirectiveError}
    (h : DirectiveMeans name args d) (h' : DirectiveFails name args e) : False := by
  have := directive_means h
  rw [directive_fails h'] at this
  injection this

/-! ### Addresses -/

theorem moves_unique {n : Node} {a b b' : Nat} (h : Moves n a b) (h' : Moves n a b') : b = b' := by
  cases h with
  | org h1 => cases h' with
    | org h2 => cases means_unique h1 h2; rfl
    | db h2 => cases means_unique h1 h2
    | equ h2 => cases means_unique h1 h2
  | db h1 => cases h' with
    | org h2 => cases means_unique h1 h2
    | db h2 => cases means_unique h1 h2; rfl
    | equ h2 => cases means_unique h1 h2
  | equ h1 => cases h' with
    | org h2 => cases means_unique h1 h2
    | db h2 => cases means_unique h1 h2
    | equ h2 => rfl
  | label => cases h'; rfl
  | instruction => cases h'; rfl

theorem reaches_unique {ns : List Node} {a b b' : Nat} (h : Reaches ns a b) (h' : Reaches ns a b') : b = b' := by
  induction h with
  | nil => cases h'; rfl
  | cons hm _ ih =>
    cases h' with
    | cons hm' h' => cases moves_unique hm hm'; exact ih h'

theorem reaches_append {p q : List Node} {a c : Nat} :
    Reaches (p ++ q) a c ↔ ∃ b, Reaches p a b ∧ Reaches q b c := by
  induction p generalizing a with
  | nil =>
    constructor
    · exact fun h => ⟨a, .nil, h⟩
    · rintro ⟨b, h1, h2⟩; cases h1; exact h2
  | cons n p ih =>
    constructor
    · intro h
      cases h with
      | cons hm h =>
        obtain ⟨b, h1, h2⟩ := ih.1 h
        exact ⟨b, .cons hm h1, h2⟩
    · rintro ⟨b, h1, h2⟩
      cases h1 with
      | cons hm h1 => exact .cons hm (ih.2 ⟨b, h1, h2⟩)

theorem reaches_single {n : Node} {a b : Nat} : Reaches [n] a b ↔ Moves n a b := by
  constructor
  · intro h
    cases h with
    | cons hm h => cases h; exact hm
  · exact fun h => .cons h .nil

theorem reaches_snoc {p : List Node} {n : Node} {a b c : Nat} (h : Reaches p a b) (hm : Moves n b c) :
    Reaches (p ++ [n]) a c := reaches_append.2 ⟨b, h, reaches_single.2 hm⟩

/-! ### Faults -/

/-- How a list ending in one element splits. -/
theorem snoc_split {α : Type} {pre p q : List α} {n m : α} (h : pre ++ [n] = p ++ m :: q) :
    (q = [] ∧ p = pre ∧ m = n) ∨ ∃ q', q = q' ++ [n] ∧ pre = p ++ m :: q' := by
  rcases List.eq_nil_or_concat q with rfl | ⟨q', x, rfl⟩
  · have h := (List.append_inj' h rfl)
    refine .inl ⟨rfl, h.1.symm, ?_⟩
    simpa using h.2.symm
  · right
    rw [List.concat_eq_append] at h ⊢
    rw [show p ++ m :: (q' ++ [x]) = (p ++ m :: q') ++ [x] by simp] at h
    have h := (List.append_inj' h rfl)
    refine ⟨q', ?_, h.1⟩
    have := h.2
    simp at this
    rw [this]

theorem clean_nil : Clean [] := by
  intro p n q h
  simp at h

theorem clean_snoc {pre : List Node} {n : Node} : Clean (pre ++ [n]) ↔ Clean pre ∧ ∀ e, ¬ Faulty pre n e := by
  constructor
  · intro h
    refine ⟨fun p m q hp e he => h p m (q ++ [n]) (by rw [hp]; simp) e he, fun e he => h pre n [] rfl e he⟩
  · rintro ⟨h1, h2⟩ p m q hp e he
    rcases snoc_split hp with ⟨rfl, rfl, rfl⟩ | ⟨q', rfl, h⟩
    · exact h2 e he
    · exact h1 p m q' h e he

theorem clean_prefix {p q : List Node} (h : Clean (p ++ q)) : Clean p :=
  fun p' n q' hp e he => h p' n (q' ++ q) (by rw [hp]; simp) e he

theorem faulty_unique {pre : List Node} {n : Node} {e e' : SemanticError} (h : Faulty pre n e)
    (h' : Faulty pre n e') : e = e' := by
  cases h with
  | invalid h1 => cases h' with
    | invalid h2 =>
      have e := directive_fails h1
      rw [directive_fails h2] at e
      injection e with e
      rw [e]
    | tooLarge h2 => exact (not_means_and_fails h2 h1).elim
    | overflow h2 => exact (not_means_and_fails h2 h1).elim
    | stray h2 => exact (not_means_and_fails h2 h1).elim
  | tooLarge h1 l1 => cases h' with
    | invalid h2 => exact (not_means_and_fails h1 h2).elim
    | tooLarge h2 => cases means_unique h1 h2; rfl
    | overflow h2 l2 => cases means_unique h1 h2; omega
    | stray h2 => cases means_unique h1 h2
  | overflow h1 l1 => cases h' with
    | invalid h2 => exact (not_means_and_fails h1 h2).elim
    | tooLarge h2 => cases means_unique h1 h2; omega
    | overflow h2 l2 => cases means_unique h1 h2; rfl
    | stray h2 => cases means_unique h1 h2
  | stray h1 l1 => cases h' with
    | invalid h2 => exact (not_means_and_fails h1 h2).elim
    | tooLarge h2 => cases means_unique h1 h2
    | overflow h2 l2 => cases means_unique h1 h2
    | stray h2 => rfl
  | redefined => cases h'; rfl
  | instructionOverflow => cases h'; rfl

/-- The first fault is unique. -/
theorem first_fault_unique {p p' q q' : List Node} {n n' : Node} {e e' : SemanticError}
    (h : p ++ n :: q = p' ++ n' :: q') (hc : Clean p) (hf : Faulty p n e) (hc' : Clean p') (hf' : Faulty p' n' e') :
    p = p' ∧ n = n' ∧ q = q' ∧ e = e' := by
  rcases List.append_eq_append_iff.1 h with ⟨r, rfl, hr⟩ | ⟨r, rfl, hr⟩
  · cases r with
    | nil =>
      simp at hr
      obtain ⟨rfl, rfl⟩ := hr
      simp only [List.append_nil] at hf'
      exact ⟨by simp, rfl, rfl, faulty_unique hf hf'⟩
    | cons x r =>
      simp at hr
      obtain ⟨rfl, rfl⟩ := hr
      exact absurd hf (hc' p n r rfl e)
  · cases r with
    | nil =>
      simp at hr
      obtain ⟨rfl, rfl⟩ := hr
      simp only [List.append_nil] at hf
      exact ⟨by simp, rfl, rfl, faulty_unique hf hf'⟩
    | cons x r =>
      simp at hr
      obtain ⟨rfl, rfl⟩ := hr
      exact absurd hf' (hc p' n' r rfl e')

/-- The counter stays within memory in a fault-free program, and there is a counter. -/
theorem clean_reaches (nodes : List Node) (h : Clean nodes) : ∃ a, Reaches nodes 0 a ∧ a ≤ 0xFFF := by
  suffices H : ∀ k (nodes : List Node), nodes.length = k → Clean nodes → ∃ a, Reaches nodes 0 a ∧ a ≤ 0xFFF from
    H _ nodes rfl h
  intro k
  induction k with
  | zero =>
    intro nodes hl _
    rw [List.length_eq_zero_iff] at hl
    subst hl
    exact ⟨0, .nil, by omega⟩
  | succ k ih =>
    intro nodes hl hc
    rcases List.eq_nil_or_concat nodes with rfl | ⟨pre, n, rfl⟩
    · simp at hl
    · rw [List.concat_eq_append] at *
      have hl : pre.length = k := by simpa using hl
      obtain ⟨hc, hf⟩ := clean_snoc.1 hc
      obtain ⟨a, ha, hle⟩ := ih pre hl hc
      cases n with
      | directive loc name args =>
        rcases directive_total name args with ⟨d, hd⟩ | ⟨e, he⟩
        · cases d with
          | org v => exact ⟨_, reaches_snoc ha (.org hd), by have := v.isLt; omega⟩
          | equ v => exact ⟨_, reaches_snoc ha (.equ hd), hle⟩
          | db bytes =>
            refine ⟨_, reaches_snoc ha (.db hd), ?_⟩
            refine Classical.byContradiction fun hn => ?_
            by_cases hb : bytes.length ≤ 0xFFF
            · exact hf _ (.overflow hd hb ha (by omega))
            · exact hf _ (.tooLarge hd (by omega))
        · exact absurd (.invalid he) (hf _)
      | label loc name => exact ⟨_, reaches_snoc ha .label, hle⟩
      | instruction loc m fields =>
        refine ⟨_, reaches_snoc ha .instruction, ?_⟩
        refine Classical.byContradiction fun hn => ?_
        exact hf _ (.instructionOverflow ha (by omega))

theorem clean_fits {nodes : List Node} (h : Clean nodes) {a : Nat} (ha : Reaches nodes 0 a) : a ≤ 0xFFF := by
  obtain ⟨b, hb, hle⟩ := clean_reaches nodes h
  exact reaches_unique ha hb ▸ hle

/-! ### The loop of the first pass -/

theorem peekConstant_iff {rest : List Node} {v : U12} : peekConstant rest = some v ↔ ConstantNext rest v := by
  constructor
  · intro h
    unfold peekConstant at h
    split at h
    · split at h
      · rename_i hd
        injection h with h
        subst h
        exact .intro (means_iff.1 hd)
      · cases h
    · cases h
  · intro h
    cases h with
    | intro h => simp only [peekConstant, means_iff.2 h]

theorem constantNext_unique {rest : List Node} {v v' : U12} (h : ConstantNext rest v) (h' : ConstantNext rest v') :
    v = v' := by
  rw [← peekConstant_iff] at *
  rw [h] at h'
  injection h'

theorem constantNext_append {p q : List Node} {v : U12} (h : ConstantNext p v) : ConstantNext (p ++ q) v := by
  cases h with
  | intro h => exact .intro h

/-- The value of a label definition standing between `pre` and `post`. -/
def ValueHere (pre post : List Node) (v : U12) : Prop :=
  ConstantNext post v ∨ (∀ c, ¬ ConstantNext post c) ∧ Reaches pre 0 v.toNat

/-- The value of a label defined in `pre`, when `rest` follows. -/
def LabelAt (pre rest : List Node) (name : Str) (v : U12) : Prop :=
  ∃ p loc q, pre = p ++ .label loc name :: q ∧ ValueHere p (q ++ rest) v

theorem labelValue_iff {nodes : List Node} {name : Str} {v : U12} :
    LabelValue nodes name v ↔ ∃ p loc q, nodes = p ++ .label loc name :: q ∧ ValueHere p q v := by
  constructor
  · intro h
    cases h with
    | constant h => exact ⟨_, _, _, rfl, .inl h⟩
    | address h1 h2 => exact ⟨_, _, _, rfl, .inr ⟨h1, h2⟩⟩
  · rintro ⟨p, loc, q, rfl, h | ⟨h1, h2⟩⟩
    · exact .constant h
    · exact .address h1 h2

theorem labelAt_snoc {pre rest : List Node} {n : Node} {name : Str} {v : U12} :
    LabelAt (pre ++ [n]) rest name v ↔
      LabelAt pre (n :: rest) name v ∨ ∃ loc, n = .label loc name ∧ ValueHere pre rest v := by
  constructor
  · rintro ⟨p, loc, q, h, hv⟩
    rcases snoc_split h with ⟨rfl, rfl, rfl⟩ | ⟨q', rfl, rfl⟩
    · exact .inr ⟨loc, rfl, hv⟩
    · refine .inl ⟨p, loc, q', rfl, ?_⟩
      simpa using hv
  · rintro (⟨p, loc, q, rfl, hv⟩ | ⟨loc, rfl, hv⟩)
    · exact ⟨p, loc, q ++ [n], by simp, by simpa using hv⟩
    · exact ⟨pre, loc, [], rfl, hv⟩

theorem valueHere_exists {pre post : List Node} (h : Clean pre) : ∃ v, ValueHere pre post v := by
  by_cases hc : ∃ v, ConstantNext post v
  · obtain ⟨v, hv⟩ := hc
    exact ⟨v, .inl hv⟩
  · obtain ⟨a, ha, hle⟩ := clean_reaches pre h
    refine ⟨BitVec.ofNat 12 a, .inr ⟨fun c hn => hc ⟨c, hn⟩, ?_⟩⟩
    rw [BitVec.toNat_ofNat, Nat.mod_eq_of_lt (by omega)]
    exact ha

theorem valueHere_unique {pre post : List Node} {v v' : U12} (h : ValueHere pre post v) (h' : ValueHere pre post v') :
    v = v' := by
  rcases h with h | ⟨h1, h2⟩
  · rcases h' with h' | ⟨h1, h2⟩
    · exact constantNext_unique h h'
    · exact absurd h (h1 v)
  · rcases h' with h' | ⟨_, h2'⟩
    · exact absurd h' (h1 v')
    · exact BitVec.eq_of_toNat_eq (reaches_unique h2 h2')

theorem mem_iff_labelAt {pre rest : List Node} (h : Clean pre) {name : Str} :
    (∃ loc, Node.label loc name ∈ pre) ↔ ∃ v, LabelAt pre rest name v := by
  constructor
  · rintro ⟨loc, hm⟩
    obtain ⟨p, q, rfl⟩ := List.append_of_mem hm
    obtain ⟨v, hv⟩ := valueHere_exists (post := q ++ rest) (clean_prefix h)
    exact ⟨v, p, loc, q, rfl, hv⟩
  · rintro ⟨v, p, loc, q, rfl, _⟩
    exact ⟨loc, by simp⟩

theorem get_cons (labels : LabelMap) (id name : Str) (v : U12) :
    LabelMap.get ((id, v) :: labels) name = if name = id then some v else labels.get name := by
  simp only [LabelMap.get, List.lookup]
  by_cases h : name = id
  · subst h; simp
  · have : (name == id) = false := by simpa using h
    simp [this, h]

theorem checkedAdd_some {a b c : U12} (h : checkedAdd a b = some c) : c.toNat = a.toNat + b.toNat := by
  unfold checkedAdd at h
  split at h
  · injection h with h
    rw [← h, BitVec.toNat_ofNat, Nat.mod_eq_of_lt (by omega)]
  · cases h

theorem checkedAdd_none {a b : U12} (h : checkedAdd a b = none) : 0xFFF < a.toNat + b.toNat := by
  unfold checkedAdd at h
  split at h
  · cases h
  · omega

theorem failableInto12_some {n : Nat} {c : U12} (h : failableInto12 n = some c) : c.toNat = n ∧ n ≤ 0xFFF := by
  unfold failableInto12 at h
  split at h
  · injection h with h
    rw [← h, BitVec.toNat_ofNat, Nat.mod_eq_of_lt (by omega)]
    exact ⟨rfl, by assumption⟩
  · cases h

theorem failableInto12_none {n : Nat} (h : failableInto12 n = none) : 0xFFF < n := by
  unfold failableInto12 at h
  split at h
  · cases h
  · omega

/-- The invariant of the first pass, `pre` being the nodes already handled. -/
structure Pass1 (pre rest : List Node) (current : U12) (labels : LabelMap) : Prop where
  clean : Clean pre
  reaches : Reaches pre 0 current.toNat
  pending : EndsWithLabel pre → ∀ v, ¬ ConstantNext rest v
  labels : ∀ name v, LabelMap.get labels name = some v ↔ LabelAt pre rest name v

/-- The outcome of the first pass. -/
def Pass1Result (pre rest : List Node) : Except SemanticError LabelMap → Prop
  | .ok labels => Clean (pre ++ rest) ∧ LabelsOf (pre ++ rest) labels
  | .error e => ∃ mid n post, rest = mid ++ n :: post ∧ Clean (pre ++ mid) ∧ Faulty (pre ++ mid) n e

theorem Pass1Result.step {pre rest : List Node} {n : Node} {r : Except SemanticError LabelMap}
    (h : Pass1Result (pre ++ [n]) rest r) : Pass1Result pre (n :: rest) r := by
  cases r with
  | ok labels => simpa [Pass1Result] using h
  | error e =>
    obtain ⟨mid, m, post, rfl, h1, h2⟩ := h
    exact ⟨n :: mid, m, post, rfl, by simpa using h1, by simpa using h2⟩

theorem Pass1Result.fault {pre rest : List Node} {n : Node} {e : SemanticError} (hc : Clean pre)
    (hf : Faulty pre n e) : Pass1Result pre (n :: rest) (.error e) :=
  ⟨[], n, rest, rfl, by simpa using hc, by simpa using hf⟩

/-- Handling a node that is not a label. -/
theorem Pass1.step {pre rest : List Node} {n : Node} {current current' : U12} {labels : LabelMap}
    (h : Pass1 pre (n :: rest) current labels) (hn : ∀ loc name, n ≠ .label loc name)
    (hf : ∀ e, ¬ Faulty pre n e) (hm : Moves n current.toNat current'.toNat) :
    Pass1 (pre ++ [n]) rest current' labels where
  clean := clean_snoc.2 ⟨h.clean, hf⟩
  reaches := reaches_snoc h.reaches hm
  pending := by
    rintro ⟨p, loc, name, hp⟩
    have := (List.append_inj' hp rfl).2
    simp at this
    exact absurd this (hn loc name)
  labels := by
    intro name v
    rw [h.labels, labelAt_snoc]
    constructor
    · exact .inl
    · rintro (h | ⟨loc, h, _⟩)
      · exact h
      · exact absurd h (hn loc name)

theorem pass1_loop (k : Nat) : ∀ (rest : List Node), rest.length ≤ k → ∀ (pre : List Node) (current : U12)
    (labels : LabelMap), Pass1 pre rest current labels →
    Pass1Result pre rest (defineLabelsLoop rest current labels) := by
  induction k with
  | zero =>
    intro rest hk pre current labels h
    have : rest = [] := List.length_eq_zero_iff.1 (by omega)
    subst this
    simp only [defineLabelsLoop, Pass1Result, List.append_nil]
    refine ⟨h.clean, fun name v => ?_⟩
    rw [h.labels, labelValue_iff]
    simp [LabelAt]
  | succ k ih =>
    intro rest hk pre current labels h
    match rest, hk, h with
    | [], _, h =>
      simp only [defineLabelsLoop, Pass1Result, List.append_nil]
      refine ⟨h.clean, fun name v => ?_⟩
      rw [h.labels, labelValue_iff]
      simp [LabelAt]
    | .directive loc name args :: rest, hk, h =>
      simp only [List.length_cons] at hk
      simp only [defineLabelsLoop]
      have notLabel : ∀ l nm, Node.directive loc name args ≠ .label l nm := by simp
      cases hd : Directive.fromIdentifierAndParameters name args with
      | error e => exact .fault h.clean (.invalid (fails_iff.1 hd))
      | ok d =>
        have hm := means_iff.1 hd
        simp only []
        cases d with
        | org a =>
          have hs : failableInto12 (Directive.size (.org a)) = some 0 := rfl
          have hc : checkedAdd current 0 = some current := by
            have := current.isLt
            simp only [checkedAdd]
            rw [if_pos (by simp; omega)]
            simp
          simp only [hs, hc]
          refine (ih rest (by omega) _ _ _ (h.step notLabel ?_ (.org hm))).step
          intro e he
          cases he with
          | invalid h2 => exact not_means_and_fails hm h2
          | tooLarge h2 => cases means_unique hm h2
          | overflow h2 => cases means_unique hm h2
          | stray h2 => cases means_unique hm h2
        | equ v =>
          have hs : failableInto12 (Directive.size (.equ v)) = some 0 := rfl
          have hc : checkedAdd current 0 = some current := by
            have := current.isLt
            simp only [checkedAdd]
            rw [if_pos (by simp; omega)]
            simp
          simp only [hs, hc]
          exact .fault h.clean (.stray hm fun hl => h.pending hl v (.intro hm))
        | db bytes =>
          cases hs : failableInto12 (Directive.size (.db bytes)) with
          | none => exact .fault h.clean (.tooLarge hm (failableInto12_none hs))
          | some size =>
            obtain ⟨hs1, hs2⟩ := failableInto12_some hs
            simp only [Directive.size] at hs1 hs2
            simp only []
            cases hc : checkedAdd current size with
            | none =>
              have := checkedAdd_none hc
              exact .fault h.clean (.overflow hm hs2 h.reaches (by omega))
            | some current' =>
              have hc' := checkedAdd_some hc
              have := current'.isLt
              simp only []
              refine (ih rest (by omega) _ _ _ (h.step notLabel ?_ ?_)).step
              · intro e he
                cases he with
                | invalid h2 => exact not_means_and_fails hm h2
                | tooLarge h2 => cases means_unique hm h2; omega
                | overflow h2 _ h3 =>
                  cases means_unique hm h2
                  cases reaches_unique h.reaches h3
                  omega
                | stray h2 => cases means_unique hm h2
              · rw [hc', hs1]
                exact .db hm
    | .instruction loc m fields :: rest, hk, h =>
      simp only [List.length_cons] at hk
      simp only [defineLabelsLoop]
      cases hc : checkedAdd current 2 with
      | none =>
        have := checkedAdd_none hc
        exact .fault h.clean (.instructionOverflow h.reaches (by simpa using this))
      | some current' =>
        have hc' := checkedAdd_some hc
        have := current'.isLt
        have e2 : (2 : U12).toNat = 2 := rfl
        simp only []
        refine (ih rest (by omega) _ _ _ (h.step (by simp) ?_ ?_)).step
        · intro e he
          cases he with
          | instructionOverflow h3 =>
            cases reaches_unique h.reaches h3
            omega
        · rw [hc']
          exact .instruction
    | .label loc name :: rest, hk, h =>
      simp only [List.length_cons] at hk
      unfold defineLabelsLoop
      by_cases hdup : (LabelMap.get labels name).isSome = true
      · rw [if_pos hdup]
        obtain ⟨v, hv⟩ := Option.isSome_iff_exists.1 hdup
        obtain ⟨loc', hm⟩ := (mem_iff_labelAt h.clean).2 ⟨v, (h.labels name v).1 hv⟩
        exact .fault h.clean (.redefined hm)
      · rw [if_neg hdup]
        have hfresh : ∀ l, Node.label l name ∉ pre := by
          intro l hm
          obtain ⟨v, hv⟩ := (mem_iff_labelAt (rest := .label loc name :: rest) h.clean).1 ⟨l, hm⟩
          rw [← h.labels] at hv
          simp [hv] at hdup
        have hnf : ∀ e, ¬ Faulty pre (.label loc name) e := by
          intro e he
          cases he with
          | redefined hm => exact hfresh _ hm
        have hclean : Clean (pre ++ [.label loc name]) := clean_snoc.2 ⟨h.clean, hnf⟩
        have hval : ValueHere pre rest ((peekConstant rest).getD current) := by
          cases hp : peekConstant rest with
          | some v => exact .inl (peekConstant_iff.1 hp)
          | none =>
            refine .inr ⟨fun c hc => ?_, h.reaches⟩
            rw [← peekConstant_iff, hp] at hc
            cases hc
        have hlabels : ∀ nm v, LabelMap.get ((name, (peekConstant rest).getD current) :: labels) nm = some v ↔
            LabelAt (pre ++ [.label loc name]) rest nm v := by
          intro nm v
          rw [get_cons, labelAt_snoc]
          by_cases hn : nm = name
          · subst hn
            rw [if_pos rfl]
            constructor
            · intro hv
              injection hv with hv
              exact .inr ⟨loc, rfl, hv ▸ hval⟩
            · rintro (hv | ⟨l, _, hv⟩)
              · obtain ⟨l, hm⟩ := (mem_iff_labelAt h.clean).2 ⟨v, hv⟩
                exact absurd hm (hfresh l)
              · rw [valueHere_unique hv hval]
          · rw [if_neg hn, h.labels]
            constructor
            · exact .inl
            · rintro (hv | ⟨l, hl, _⟩)
              · exact hv
              · simp at hl
                exact absurd hl.2.symm hn
        cases hp : peekConstant rest with
        | none =>
          rw [hp] at hlabels
          have hno : ∀ v, ¬ ConstantNext rest v := fun v hv => by
            rw [← peekConstant_iff, hp] at hv
            cases hv
          have hnext : Pass1 (pre ++ [.label loc name]) rest current ((name, Option.getD none current) :: labels) :=
            ⟨hclean, reaches_snoc h.reaches .label, fun _ => hno, hlabels⟩
          cases rest with
          | nil => exact (ih [] (by omega) _ _ _ hnext).step
          | cons r rs => exact (ih (r :: rs) (by omega) _ _ _ hnext).step
        | some c =>
          rw [hp] at hlabels
          have hc := peekConstant_iff.1 hp
          cases hc with
          | @intro l nm args c rest' hm =>
            simp only [List.length_cons] at hk
            simp only []
            refine (ih rest' (by omega) _ _ _ ?_).step.step
            refine ⟨clean_snoc.2 ⟨hclean, ?_⟩, reaches_snoc (reaches_snoc h.reaches .label) (.equ hm), ?_, ?_⟩
            · intro e he
              cases he with
              | invalid h2 => exact not_means_and_fails hm h2
              | tooLarge h2 => cases means_unique hm h2
              | overflow h2 => cases means_unique hm h2
              | stray _ h2 => exact h2 ⟨pre, loc, name, rfl⟩
            · rintro ⟨p, l, nm, hp⟩
              have := (List.append_inj' hp rfl).2
              simp at this
            · intro nm' v
              refine (hlabels nm' v).trans (Iff.trans ?_ (labelAt_snoc (pre := pre ++ [.label loc name])).symm)
              constructor
              · exact .inl
              · rintro (h | ⟨l, h, _⟩)
                · exact h
                · cases h

/-- What the first pass computes. -/
theorem defineLabels_result (nodes : List Node) : Pass1Result [] nodes (defineLabels nodes) := by
  refine pass1_loop nodes.length nodes (by omega) [] 0 [] ⟨clean_nil, .nil, ?_, ?_⟩
  · rintro ⟨p, l, n, h⟩
    cases p <;> cases h
  · intro name v
    constructor
    · intro h; cases h
    · rintro ⟨p, l, q, h, _⟩
      cases p <;> cases h

theorem defineLabels_error_iff {nodes : List Node} {e : SemanticError} : defineLabels nodes = .error e ↔
    ∃ pre n post, nodes = pre ++ n :: post ∧ Clean pre ∧ Faulty pre n e := by
  have h := defineLabels_result nodes
  constructor
  · intro he
    rw [he] at h
    simpa [Pass1Result] using h
  · rintro ⟨pre, n, post, rfl, hc, hf⟩
    cases hd : defineLabels (pre ++ n :: post) with
    | ok labels =>
      rw [hd] at h
      exact absurd hf (h.1 pre n post (by simp) e)
    | error e' =>
      rw [hd] at h
      obtain ⟨p, m, q, he, hc', hf'⟩ := h
      rw [(first_fault_unique he hc hf (by simpa using hc') (by simpa using hf')).2.2.2]

theorem defineLabels_ok {nodes : List Node} {labels : LabelMap} (h : defineLabels nodes = .ok labels) :
    Clean nodes ∧ LabelsOf nodes labels := by
  have hr := defineLabels_result nodes
  rw [h] at hr
  simpa [Pass1Result] using hr

theorem defineLabels_of_clean {nodes : List Node} (h : Clean nodes) : ∃ labels, defineLabels nodes = .ok labels := by
  cases hd : defineLabels nodes with
  | ok labels => exact ⟨labels, rfl⟩
  | error e =>
    obtain ⟨pre, n, post, rfl, _, hf⟩ := defineLabels_error_iff.1 hd
    exact absurd hf (h pre n post rfl e)

end C8S
