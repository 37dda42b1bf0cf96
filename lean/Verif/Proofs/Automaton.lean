import Verif.Spec.Automaton
import Verif.Spec.Grammar
import Verif.Props.Operand

/- Lemmas for C124: the syntax of statements as an automaton on tokens. -/

namespace C8S

open Spec

namespace Auto

/-- Where in a program one is. -/
inductive Phase where
  /-- in front of a statement -/
  | between
  /-- after the dot of a directive -/
  | dot
  /-- after the first name of a line -/
  | name
  /-- where an argument may follow -/
  | argument
  /-- after an argument -/
  | argued
  /-- where an operand may follow -/
  | operand
  /-- after an operand -/
  | operated
  /-- after an error -/
  | wrong

/-- A statement may begin here. -/
def begin : Token → Phase
  | .newline _ => .between
  | .singleLineComment _ _ => .between
  | .identifier _ _ => .name
  | .directiveMarker _ => .dot
  | _ => .wrong

def next : Phase → Token → Phase
  | .between, t => begin t
  | .dot, .identifier _ _ => .argument
  | .dot, _ => .wrong
  | .name, .labelMarker _ => .between
  | .name, .newline _ => .between
  | .name, .singleLineComment _ _ => .between
  | .name, .identifier _ _ => .operated
  | .name, .numericLiteral _ _ => .operated
  | .name, _ => .wrong
  | .argument, .stringLiteral _ _ => .argued
  | .argument, .numericLiteral _ _ => .argued
  | .argument, .newline _ => .between
  | .argument, _ => .wrong
  | .argued, .comma _ => .argument
  | .argued, t => begin t
  | .operand, .identifier _ _ => .operated
  | .operand, .numericLiteral _ _ => .operated
  | .operand, .newline _ => .between
  | .operand, .singleLineComment _ _ => .between
  | .operand, _ => .wrong
  | .operated, .comma _ => .operand
  | .operated, t => begin t
  | .wrong, _ => .wrong

def good : Phase → Bool
  | .between => true
  | .argued => true
  | .operated => true
  | _ => false

def phases : List Phase := [.between, .dot, .name, .argument, .argued, .operand, .operated, .wrong]

theorem mem_phases (p : Phase) : p ∈ phases := by cases p <;> simp [phases]

theorem wrong_stays (ts : List Token) : ts.foldl next .wrong = .wrong := by
  induction ts with
  | nil => rfl
  | cons t ts ih => exact ih

/-! ### Programs are accepted -/

/-- After an argument or an operand things go on as in front of a statement, if no comma follows. -/
theorem program_no_comma {ts : List Token} {ns : List Node} (h : Program ts ns) (l : Loc) (r : List Token) : ts ≠ .comma l :: r := by
  rintro rfl
  cases h with
  | blank h _ =>
    rcases h with ⟨_, h⟩ | ⟨_, _, h⟩ <;> cases h

theorem argued_between {ts : List Token} (h : ∀ l r, ts ≠ .comma l :: r) :
    good (ts.foldl next .argued) = good (ts.foldl next .between) ∧ good (ts.foldl next .operated) = good (ts.foldl next .between) := by
  cases ts with
  | nil => exact ⟨rfl, rfl⟩
  | cons t ts =>
    cases t with
    | comma l => exact absurd rfl (h l ts)
    | _ => exact ⟨rfl, rfl⟩

theorem arguments_good {isOpen : Bool} {args : List Token} {xs : List Literal} (h : ItemList LiteralTok isOpen args xs)
    {ts : List Token} (ho : isOpen → ∃ t r, ts = t :: r ∧ IsNewline t) (hc : ∀ l r, ts ≠ .comma l :: r)
    (hg : good (ts.foldl next .between)) : good ((args ++ ts).foldl next .argument) := by
  induction h with
  | empty =>
    obtain ⟨t, r, rfl, l, rfl⟩ := ho rfl
    exact hg
  | one hi => cases hi <;> exact (argued_between hc).1.trans hg
  | more hi _ ih => cases hi <;> exact ih ho

theorem operands_good {isOpen : Bool} {args : List Token} {xs : List Field} (h : ItemList OperandTok isOpen args xs)
    {ts : List Token} (ho : isOpen → ∃ t r, ts = t :: r ∧ (IsNewline t ∨ IsComment t)) (hc : ∀ l r, ts ≠ .comma l :: r)
    (hg : good (ts.foldl next .between)) :
    good ((args ++ ts).foldl next .operand) ∧ good ((args ++ ts).foldl next .name) := by
  induction h with
  | empty =>
    obtain ⟨t, r, rfl, ⟨l, rfl⟩ | ⟨s, l, rfl⟩⟩ := ho rfl
    · exact ⟨hg, hg⟩
    · exact ⟨hg, hg⟩
  | one hi => cases hi <;> exact ⟨(argued_between hc).2.trans hg, (argued_between hc).2.trans hg⟩
  | more hi _ ih => cases hi <;> exact ⟨(ih ho).1, (ih ho).1⟩

theorem program_good {ts : List Token} {ns : List Node} (h : Program ts ns) : good (ts.foldl next .between) := by
  induction h with
  | empty => rfl
  | blank hb _ ih => rcases hb with ⟨_, rfl⟩ | ⟨_, _, rfl⟩ <;> exact ih
  | label _ ih => exact ih
  | directive hi ho hp ih => exact arguments_good hi ho (program_no_comma hp) ih
  | instruction hi ho hp ih => exact (operands_good hi ho (program_no_comma hp) ih).2

/-! ### What is accepted is a program -/

/-- The rest of a directive. -/
def Arguments (ts : List Token) : Prop :=
  ∃ isOpen args rest xs ns, ts = args ++ rest ∧ ItemList LiteralTok isOpen args xs ∧ (isOpen → ∃ t r, rest = t :: r ∧ IsNewline t) ∧
    Program rest ns

/-- The rest of an instruction. -/
def Operands (ts : List Token) : Prop :=
  ∃ isOpen args rest fs ns, ts = args ++ rest ∧ ItemList OperandTok isOpen args fs ∧
    (isOpen → ∃ t r, rest = t :: r ∧ (IsNewline t ∨ IsComment t)) ∧ Program rest ns

/-- What has been read, together with the rest, is a program. -/
def Completes : Phase → List Token → Prop
  | .between, ts => ∃ ns, Program ts ns
  | .dot, ts => ∃ s l r, ts = .identifier s l :: r ∧ Arguments r
  | .name, ts => Operands ts ∨ ∃ l r ns, ts = .labelMarker l :: r ∧ Program r ns
  | .argument, ts => Arguments ts
  | .argued, ts => (∃ ns, Program ts ns) ∨ ∃ l r, ts = .comma l :: r ∧ Arguments r
  | .operand, ts => Operands ts
  | .operated, ts => (∃ ns, Program ts ns) ∨ ∃ l r, ts = .comma l :: r ∧ Operands r
  | .wrong, _ => False

theorem operand_exists (s : Str) (l : Loc) : ∃ f, OperandTok (.identifier s l) f := by
  obtain ⟨f, hf, _⟩ := C17_total s
  exact ⟨f, .name hf⟩

theorem number_exists (n : Nat) (l : Loc) : ∃ f, OperandTok (.numericLiteral n l) f :=
  ⟨_, .numeric (w := BitVec.ofNat 12 n) (by simp)⟩

theorem arguments_item {t : Token} {x : Literal} (h : LiteralTok t x) {ts : List Token} (hc : Completes .argued ts) : Arguments (t :: ts) := by
  rcases hc with ⟨ns, hp⟩ | ⟨l, r, rfl, isOpen, args, rest, xs, ns, rfl, hi, ho, hp⟩
  · exact ⟨false, [t], ts, [x], ns, rfl, .one h, (fun h => by cases h), hp⟩
  · exact ⟨isOpen, t :: .comma l :: args, rest, x :: xs, ns, rfl, .more h hi, ho, hp⟩

theorem operands_item {t : Token} {x : Field} (h : OperandTok t x) {ts : List Token} (hc : Completes .operated ts) : Operands (t :: ts) := by
  rcases hc with ⟨ns, hp⟩ | ⟨l, r, rfl, isOpen, args, rest, xs, ns, rfl, hi, ho, hp⟩
  · exact ⟨false, [t], ts, [x], ns, rfl, .one h, (fun h => by cases h), hp⟩
  · exact ⟨isOpen, t :: .comma l :: args, rest, x :: xs, ns, rfl, .more h hi, ho, hp⟩

theorem completes_begin {t : Token} {ts : List Token} (h : Completes (begin t) ts) : ∃ ns, Program (t :: ts) ns := by
  cases t with
  | newline l =>
    obtain ⟨ns, hp⟩ := h
    exact ⟨ns, .blank (.inl ⟨l, rfl⟩) hp⟩
  | singleLineComment s l =>
    obtain ⟨ns, hp⟩ := h
    exact ⟨ns, .blank (.inr ⟨s, l, rfl⟩) hp⟩
  | identifier s l =>
    rcases h with ⟨isOpen, args, rest, fs, ns, rfl, hi, ho, hp⟩ | ⟨l', r, ns, rfl, hp⟩
    · exact ⟨_, .instruction hi ho hp⟩
    · exact ⟨_, .label hp⟩
  | directiveMarker l =>
    obtain ⟨s, l', r, rfl, isOpen, args, rest, xs, ns, rfl, hi, ho, hp⟩ := h
    exact ⟨_, .directive hi ho hp⟩
  | _ => exact h.elim

theorem completes_step {p : Phase} {t : Token} {ts : List Token} (h : Completes (next p t) ts) : Completes p (t :: ts) := by
  cases p with
  | between => exact completes_begin h
  | wrong => exact h
  | dot =>
    cases t with
    | identifier s l => exact ⟨s, l, ts, rfl, h⟩
    | _ => exact h.elim
  | argument =>
    cases t with
    | stringLiteral s l => exact arguments_item .string h
    | numericLiteral n l => exact arguments_item .numeric h
    | newline l =>
      obtain ⟨ns, hp⟩ := h
      exact ⟨true, [], _, [], _, rfl, .empty, fun _ => ⟨_, _, rfl, l, rfl⟩, .blank (.inl ⟨l, rfl⟩) hp⟩
    | _ => exact h.elim
  | name =>
    cases t with
    | identifier s l =>
      obtain ⟨f, hf⟩ := operand_exists s l
      exact .inl (operands_item hf h)
    | numericLiteral n l =>
      obtain ⟨f, hf⟩ := number_exists n l
      exact .inl (operands_item hf h)
    | newline l =>
      obtain ⟨ns, hp⟩ := h
      exact .inl ⟨true, [], _, [], _, rfl, .empty, fun _ => ⟨_, _, rfl, .inl ⟨l, rfl⟩⟩, .blank (.inl ⟨l, rfl⟩) hp⟩
    | singleLineComment s l =>
      obtain ⟨ns, hp⟩ := h
      exact .inl ⟨true, [], _, [], _, rfl, .empty, fun _ => ⟨_, _, rfl, .inr ⟨s, l, rfl⟩⟩, .blank (.inr ⟨s, l, rfl⟩) hp⟩
    | labelMarker l =>
      obtain ⟨ns, hp⟩ := h
      exact .inr ⟨l, ts, ns, rfl, hp⟩
    | _ => exact h.elim
  | operand =>
    cases t with
    | identifier s l =>
      obtain ⟨f, hf⟩ := operand_exists s l
      exact operands_item hf h
    | numericLiteral n l =>
      obtain ⟨f, hf⟩ := number_exists n l
      exact operands_item hf h
    | newline l =>
      obtain ⟨ns, hp⟩ := h
      exact ⟨true, [], _, [], _, rfl, .empty, fun _ => ⟨_, _, rfl, .inl ⟨l, rfl⟩⟩, .blank (.inl ⟨l, rfl⟩) hp⟩
    | singleLineComment s l =>
      obtain ⟨ns, hp⟩ := h
      exact ⟨true, [], _, [], _, rfl, .empty, fun _ => ⟨_, _, rfl, .inr ⟨s, l, rfl⟩⟩, .blank (.inr ⟨s, l, rfl⟩) hp⟩
    | _ => exact h.elim
  | argued =>
    cases t with
    | comma l => exact .inr ⟨l, ts, rfl, h⟩
    | _ => exact .inl (completes_begin h)
  | operated =>
    cases t with
    | comma l => exact .inr ⟨l, ts, rfl, h⟩
    | _ => exact .inl (completes_begin h)

theorem good_completes (ts : List Token) : ∀ p : Phase, good (ts.foldl next p) → Completes p ts := by
  induction ts with
  | nil =>
    intro p h
    cases p with
    | between => exact ⟨[], .empty⟩
    | argued => exact .inl ⟨[], .empty⟩
    | operated => exact .inl ⟨[], .empty⟩
    | _ => cases h
  | cons t ts ih => exact fun p h => completes_step (ih _ h)

theorem program_iff (ts : List Token) : (∃ ns, Program ts ns) ↔ good (ts.foldl next .between) :=
  ⟨fun ⟨_, h⟩ => program_good h, good_completes ts .between⟩

/-! ### Lower bounds -/

theorem nodup_length {σ : Type} {l : List σ} : ∀ {m : List σ}, l.Nodup → (∀ x ∈ l, x ∈ m) → l.length ≤ m.length := by
  induction l with
  | nil => intro m _ _; exact Nat.zero_le _
  | cons a l ih =>
    intro m hn hm
    obtain ⟨m1, m2, rfl⟩ := List.append_of_mem (hm a List.mem_cons_self)
    rw [List.nodup_cons] at hn
    have := ih (m := m1 ++ m2) hn.2 fun x hx => by
      have := hm x (List.mem_cons_of_mem _ hx)
      simp only [List.mem_append, List.mem_cons] at this ⊢
      rcases this with h | rfl | h
      · exact .inl h
      · exact absurd hx hn.1
      · exact .inr h
    simp only [List.length_append, List.length_cons] at this ⊢
    omega

/-- Words that have to be told apart need as many states. -/
theorem distinct_states {α : Type} {n : Nat} {accepted : List α → Prop} (h : Recognised n accepted) (ws : List (List α))
    (hp : ws.Pairwise fun w w' => ∃ z, ¬ (accepted (w ++ z) ↔ accepted (w' ++ z))) : ws.length ≤ n := by
  obtain ⟨σ, states, step, start, final, hl, hm, ha⟩ := h
  have hn : (ws.map fun w => w.foldl step start).Nodup := by
    rw [List.Nodup, List.pairwise_map]
    refine hp.imp fun {w w'} hz e => ?_
    obtain ⟨z, hz⟩ := hz
    refine hz ?_
    rw [ha, ha, List.foldl_append, List.foldl_append, e]
  have := nodup_length hn fun x _ => hm x
  rw [List.length_map] at this
  omega

end Auto

end C8S
