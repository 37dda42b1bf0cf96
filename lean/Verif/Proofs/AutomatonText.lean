import Verif.Proofs.Automaton
import Verif.Proofs.Numerals
import Verif.Spec.Lexical

/- Lemmas for C124: the syntax of texts as an automaton on characters. -/

namespace C8S

open Spec

namespace Auto

/-- Where in a token one is. -/
inductive Inside [Target] where
  | nothing
  | comment
  | name
  | bracket
  | register
  | newline
  | comma
  | colon
  | dot
  | quoted
  | indirect
  | string
  | escape
  | bad
  | percent
  | hex (digits : Fin 4)
  | dec (value : Fin 4097)
  | bin (value : Fin (2 ^ usizeBits))

variable [Target]

/-- The number, or 4096 if it is larger. -/
def upTo (n : Nat) : Fin 4097 := ⟨min n 4096, by omega⟩

/-- The number modulo the machine word. -/
def word (n : Nat) : Fin (2 ^ usizeBits) := ⟨n % 2 ^ usizeBits, Nat.mod_lt _ (Nat.two_pow_pos _)⟩

/-- The first character of a token. -/
def initial (c : Char) : Inside :=
  if Decimal c then .dec (upTo (0 * 10 + digitVal c))
  else if NameStart c then .name
  else if Blank c then .nothing
  else if c = '\n' then .newline
  else if c = ',' then .comma
  else if c = ':' then .colon
  else if c = '.' then .dot
  else if c = ';' then .comment
  else if c = '"' then .string
  else if c = '$' ∨ c = '#' then .hex 0
  else if c = '%' then .percent
  else if c = '[' then .bracket
  else .bad

/-- A further character of the token. -/
def extend : Inside → Char → Option Inside
  | .comment, c => if c = '\n' then none else some .comment
  | .name, c => if NameChar c then some .name else none
  | .bracket, c => if c = 'i' ∨ c = 'I' then some .register else none
  | .register, c => if c = ']' then some .indirect else none
  | .string, c => if c = '"' then some .quoted else if c = '\\' then some .escape else some .string
  | .escape, c => if c = '\n' then none else some .string
  | .percent, c => if Binary c then some (.bin (word (0 * 2 + digitVal c))) else none
  | .hex n, c => if h : n.val < 3 ∧ Hexadecimal c then some (.hex ⟨n.val + 1, by omega⟩) else none
  | .dec v, c => if Decimal c then some (.dec (upTo (v.val * 10 + digitVal c))) else none
  | .bin v, c => if Binary c then some (.bin (word (v.val * 2 + digitVal c))) else none
  | _, _ => none

def nowhere : Loc := ⟨[], 0, 0, 0⟩

/-- The token has ended. -/
def closes : Inside → Phase → Phase
  | .nothing, p => p
  | .comment, p => next p (.singleLineComment [] nowhere)
  | .name, p => next p (.identifier [] nowhere)
  | .indirect, p => next p (.identifier [] nowhere)
  | .newline, p => next p (.newline nowhere)
  | .comma, p => next p (.comma nowhere)
  | .colon, p => next p (.labelMarker nowhere)
  | .dot, p => next p (.directiveMarker nowhere)
  | .quoted, p => next p (.stringLiteral [] nowhere)
  | .hex n, p => if n.val = 0 then .wrong else next p (.numericLiteral 0 nowhere)
  | .dec v, p => if v.val ≤ 4095 then next p (.numericLiteral 0 nowhere) else .wrong
  | .bin v, p => if v.val ≤ 4095 then next p (.numericLiteral 0 nowhere) else .wrong
  | _, _ => .wrong

def step (s : Phase × Inside) (c : Char) : Phase × Inside :=
  match extend s.2 c with
  | some i => (s.1, i)
  | none => (closes s.2 s.1, initial c)

def finish (s : Phase × Inside) : Phase := closes s.2 s.1

def insides : List Inside :=
  [.nothing, .comment, .name, .bracket, .register, .newline, .comma, .colon, .dot, .quoted, .indirect, .string, .escape, .bad, .percent] ++
    ((List.finRange 4).map .hex ++ ((List.finRange 4097).map .dec ++ (List.finRange (2 ^ usizeBits)).map .bin))

theorem mem_insides (i : Inside) : i ∈ insides := by
  unfold insides
  cases i <;> simp

theorem length_insides : insides.length = 4116 + 2 ^ usizeBits := by
  unfold insides
  simp
  omega

/-! ### One token -/

def grow (i : Inside) : Str → Option Inside
  | [] => some i
  | c :: s =>
    match extend i c with
    | some i' => grow i' s
    | none => none

theorem grow_step {s : Str} : ∀ {i i' : Inside}, grow i s = some i' → ∀ p, s.foldl step (p, i) = (p, i') := by
  induction s with
  | nil =>
    intro i i' h p
    cases h
    rfl
  | cons c s ih =>
    intro i i' h p
    unfold grow at h
    cases e : extend i c with
    | none => rw [e] at h; cases h
    | some j =>
      rw [e] at h
      rw [List.foldl_cons, show step (p, i) c = (p, j) by simp [step, e]]
      exact ih h p

theorem grow_snoc {s : Str} {d : Char} : ∀ {i i' : Inside}, grow i s = some i' → grow i (s ++ [d]) = extend i' d := by
  induction s with
  | nil =>
    intro i i' h
    cases h
    show (match extend i d with | some i' => some i' | none => none) = extend i d
    cases extend i d <;> rfl
  | cons c s ih =>
    intro i i' h
    unfold grow at h
    cases e : extend i c with
    | none => rw [e] at h; cases h
    | some j =>
      rw [e] at h
      show (match extend i c with | some i' => grow i' (s ++ [d]) | none => none) = _
      rw [e]
      exact ih h

omit [Target] in
theorem upTo_step (n d : Nat) : upTo ((upTo n).val * 10 + d) = upTo (n * 10 + d) := by
  simp only [upTo, Fin.mk.injEq]
  omega

theorem word_step (n d : Nat) : word ((word n).val * 2 + d) = word (n * 2 + d) := by
  simp only [word, Fin.mk.injEq]
  simp [Nat.add_mod, Nat.mul_mod]

theorem grow_dec {s : Str} (h : ∀ d ∈ s, Decimal d) : ∀ n, grow (.dec (upTo n)) s = some (.dec (upTo (s.foldl (fun acc c => acc * 10 + digitVal c) n))) := by
  induction s with
  | nil => intro n; rfl
  | cons c s ih =>
    intro n
    unfold grow
    rw [show extend (.dec (upTo n)) c = some (.dec (upTo (n * 10 + digitVal c))) by
      simp [extend, h c (by simp), upTo_step]]
    exact ih (fun d hd => h d (by simp [hd])) _

theorem grow_bin {s : Str} (h : ∀ d ∈ s, Binary d) : ∀ n, grow (.bin (word n)) s = some (.bin (word (s.foldl (fun acc c => acc * 2 + digitVal c) n))) := by
  induction s with
  | nil => intro n; rfl
  | cons c s ih =>
    intro n
    unfold grow
    rw [show extend (.bin (word n)) c = some (.bin (word (n * 2 + digitVal c))) by
      simp [extend, h c (by simp), word_step]]
    exact ih (fun d hd => h d (by simp [hd])) _

theorem grow_name {s : Str} (h : ∀ d ∈ s, NameChar d) : grow .name s = some .name := by
  induction s with
  | nil => rfl
  | cons c s ih =>
    unfold grow
    rw [show extend .name c = some .name by simp [extend, h c (by simp)]]
    exact ih fun d hd => h d (by simp [hd])

theorem grow_comment {s : Str} (h : '\n' ∉ s) : grow .comment s = some .comment := by
  induction s with
  | nil => rfl
  | cons c s ih =>
    unfold grow
    rw [show extend .comment c = some .comment by
      have : c ≠ '\n' := fun e => h (by simp [e])
      simp [extend, this]]
    exact ih fun hd => h (by simp [hd])

theorem grow_hex {s : Str} (h : ∀ d ∈ s, Hexadecimal d) : ∀ (n : Fin 4) (hn : n.val + s.length < 4),
    grow (.hex n) s = some (.hex ⟨n.val + s.length, hn⟩) := by
  induction s with
  | nil => intro n hn; rfl
  | cons c s ih =>
    intro n hn
    rw [List.length_cons] at hn
    unfold grow
    rw [show extend (.hex n) c = some (.hex ⟨n.val + 1, by omega⟩) by
      simp only [extend]
      rw [dif_pos ⟨by omega, h c (by simp)⟩]]
    simp only
    rw [ih (fun d hd => h d (by simp [hd])) _ (by simp only; omega)]
    simp only [List.length_cons, Option.some.injEq, Inside.hex.injEq, Fin.mk.injEq]
    omega

theorem grow_string {s : Str} (h : StringBody s) : grow .string (s ++ ['"']) = some .quoted := by
  induction h with
  | nil => rfl
  | @plain c s h1 h2 _ ih =>
    show (match extend .string c with | some i' => grow i' (s ++ ['"']) | none => none) = _
    simp only [extend, h1, h2, if_false]
    exact ih
  | @escape c s h1 _ ih =>
    show (match extend .escape c with | some i' => grow i' (s ++ ['"']) | none => none) = _
    simp only [extend, h1, if_false]
    exact ih

omit [Target] in
theorem not_decimal {c : Char} (h : NameStart c) : ¬ Decimal c := by
  unfold NameStart at h
  unfold Decimal
  rintro ⟨h1, h2⟩
  have e1 : '9'.toNat = 57 := rfl
  rcases h with rfl | ⟨h, _⟩ | ⟨h, _⟩
  · exact absurd h2 (by decide)
  · have := Char.le_def.1 (Char.le_trans h h2)
    exact absurd this (by decide)
  · have := Char.le_def.1 (Char.le_trans h h2)
    exact absurd this (by decide)

omit [Target] in
theorem next_error (p : Phase) (e : ScanError) (l : Loc) : next p (.error e l) = .wrong := by cases p <;> rfl

/-- What reading a token does. -/
theorem lexeme_grows {s : Str} {k : Loc → Token} (h : Lexeme wordBinary s k) : ∃ c t i, s = c :: t ∧ grow (initial c) t = some i ∧
    (∀ p l, closes i p = next p (k l)) ∧ ∀ d, extend i d ≠ none → ∃ k', Lexeme wordBinary (s ++ [d]) k' := by
  cases h with
  | newline => exact ⟨_, _, .newline, rfl, rfl, fun p l => by cases p <;> rfl, fun d h => absurd rfl h⟩
  | comma => exact ⟨_, _, .comma, rfl, rfl, fun p l => by cases p <;> rfl, fun d h => absurd rfl h⟩
  | labelMarker => exact ⟨_, _, .colon, rfl, rfl, fun p l => by cases p <;> rfl, fun d h => absurd rfl h⟩
  | directiveMarker => exact ⟨_, _, .dot, rfl, rfl, fun p l => by cases p <;> rfl, fun d h => absurd rfl h⟩
  | @comment s hs =>
    refine ⟨_, _, .comment, rfl, grow_comment hs, fun p l => by cases p <;> rfl, fun d h => ⟨_, .comment (s := s ++ [d]) ?_⟩⟩
    intro hm
    rcases List.mem_append.1 hm with hm | hm
    · exact hs hm
    · cases List.mem_singleton.1 hm
      exact h rfl
  | @name c s hc hs =>
    refine ⟨_, _, .name, rfl, ?_, fun p l => by cases p <;> rfl, fun d h => ⟨_, .name (s := s ++ [d]) hc ?_⟩⟩
    · rw [show initial c = .name by simp [initial, not_decimal hc, hc]]
      exact grow_name hs
    · intro x hx
      rcases List.mem_append.1 hx with hx | hx
      · exact hs x hx
      · cases List.mem_singleton.1 hx
        exact Classical.byContradiction fun hn => h (by simp [extend, hn])
  | @indirect c hc =>
    refine ⟨_, _, .indirect, rfl, ?_, fun p l => by cases p <;> rfl, fun d h => absurd rfl h⟩
    rcases hc with rfl | rfl <;> rfl
  | @string s hs => exact ⟨_, _, .quoted, rfl, grow_string hs, fun p l => by cases p <;> rfl, fun d h => absurd rfl h⟩
  | @hex c s hc hne hl hd =>
    refine ⟨_, _, .hex ⟨0 + s.length, by omega⟩, rfl, ?_, fun p l => ?_, fun d h => ⟨_, .hex (s := s ++ [d]) hc (by simp) ?_ ?_⟩⟩
    · rw [show initial c = .hex 0 by rcases hc with rfl | rfl <;> rfl]
      exact grow_hex hd 0 (by simp; omega)
    · have : s.length ≠ 0 := fun e => hne (List.length_eq_zero_iff.1 e)
      simp only [closes, Nat.zero_add, this, if_false]
      cases p <;> rfl
    · have : 0 + s.length < 3 := Classical.byContradiction fun hn => h (by simp only [extend]; rw [dif_neg fun hx => hn hx.1])
      simp
      omega
    · intro x hx
      rcases List.mem_append.1 hx with hx | hx
      · exact hd x hx
      · cases List.mem_singleton.1 hx
        exact Classical.byContradiction fun hn => h (by simp only [extend]; rw [dif_neg fun hx => hn hx.2])
  | @decimal s hne hd hv =>
    obtain ⟨c, t, rfl⟩ := List.exists_cons_of_ne_nil hne
    refine ⟨c, t, .dec (upTo (positional 10 (c :: t))), rfl, ?_, fun p l => ?_, fun d h => ?_⟩
    · rw [show initial c = .dec (upTo (0 * 10 + digitVal c)) by simp [initial, hd c (by simp)]]
      exact grow_dec (fun d h => hd d (by simp [h])) _
    · simp only [closes]
      rw [if_pos (show (upTo _).val ≤ 4095 by simp only [upTo]; omega)]
      cases p <;> rfl
    · have hx : ∀ x ∈ (c :: t) ++ [d], Decimal x := by
        intro x hx
        rcases List.mem_append.1 hx with hx | hx
        · exact hd x hx
        · cases List.mem_singleton.1 hx
          exact Classical.byContradiction fun hn => h (by simp [extend, hn])
      by_cases hb : positional 10 ((c :: t) ++ [d]) ≤ 4095
      · exact ⟨_, .decimal (by simp) hx hb⟩
      · exact ⟨_, .decimalRange (by simp) hx (by omega)⟩
  | @decimalRange s hne hd hv =>
    obtain ⟨c, t, rfl⟩ := List.exists_cons_of_ne_nil hne
    refine ⟨c, t, .dec (upTo (positional 10 (c :: t))), rfl, ?_, fun p l => ?_, fun d h => ?_⟩
    · rw [show initial c = .dec (upTo (0 * 10 + digitVal c)) by simp [initial, hd c (by simp)]]
      exact grow_dec (fun d h => hd d (by simp [h])) _
    · simp only [closes]
      rw [if_neg (show ¬ (upTo _).val ≤ 4095 by simp only [upTo]; omega), next_error]
    · have hx : ∀ x ∈ (c :: t) ++ [d], Decimal x := by
        intro x hx
        rcases List.mem_append.1 hx with hx | hx
        · exact hd x hx
        · cases List.mem_singleton.1 hx
          exact Classical.byContradiction fun hn => h (by simp [extend, hn])
      by_cases hb : positional 10 ((c :: t) ++ [d]) ≤ 4095
      · exact ⟨_, .decimal (by simp) hx hb⟩
      · exact ⟨_, .decimalRange (by simp) hx (by omega)⟩
  | @binary s hne hd hv =>
    obtain ⟨c, t, rfl⟩ := List.exists_cons_of_ne_nil hne
    refine ⟨_, _, .bin (word (positional 2 (c :: t))), rfl, ?_, fun p l => ?_, fun d h => ?_⟩
    · unfold grow
      rw [show extend (initial '%') c = some (.bin (word (0 * 2 + digitVal c))) by
        rw [show initial '%' = .percent by rfl]; simp [extend, hd c (by simp)]]
      exact grow_bin (fun d h => hd d (by simp [h])) _
    · simp only [closes]
      rw [if_pos (show (word _).val ≤ 4095 from hv)]
      cases p <;> rfl
    · have hx : ∀ x ∈ (c :: t) ++ [d], Binary x := by
        intro x hx
        rcases List.mem_append.1 hx with hx | hx
        · exact hd x hx
        · cases List.mem_singleton.1 hx
          exact Classical.byContradiction fun hn => h (by simp [extend, hn])
      by_cases hb : wordBinary ((c :: t) ++ [d]) ≤ 4095
      · exact ⟨_, .binary (by simp) hx hb⟩
      · exact ⟨_, .binaryRange (by simp) hx (Nat.lt_of_not_le hb)⟩
  | @binaryRange s hne hd hv =>
    obtain ⟨c, t, rfl⟩ := List.exists_cons_of_ne_nil hne
    refine ⟨_, _, .bin (word (positional 2 (c :: t))), rfl, ?_, fun p l => ?_, fun d h => ?_⟩
    · unfold grow
      rw [show extend (initial '%') c = some (.bin (word (0 * 2 + digitVal c))) by
        rw [show initial '%' = .percent by rfl]; simp [extend, hd c (by simp)]]
      exact grow_bin (fun d h => hd d (by simp [h])) _
    · simp only [closes]
      rw [if_neg (show ¬ (word _).val ≤ 4095 from Nat.not_le_of_lt hv), next_error]
    · have hx : ∀ x ∈ (c :: t) ++ [d], Binary x := by
        intro x hx
        rcases List.mem_append.1 hx with hx | hx
        · exact hd x hx
        · cases List.mem_singleton.1 hx
          exact Classical.byContradiction fun hn => h (by simp [extend, hn])
      by_cases hb : wordBinary ((c :: t) ++ [d]) ≤ 4095
      · exact ⟨_, .binary (by simp) hx hb⟩
      · exact ⟨_, .binaryRange (by simp) hx (Nat.lt_of_not_le hb)⟩

/-! ### Texts -/

theorem closes_wrong (i : Inside) : closes i .wrong = .wrong := by
  cases i <;> simp [closes, next]

theorem wrong_finish (s : Str) : ∀ i : Inside, finish (s.foldl step (.wrong, i)) = .wrong := by
  induction s with
  | nil => exact closes_wrong
  | cons c s ih =>
    intro i
    rw [List.foldl_cons]
    cases e : extend i c with
    | some j => rw [show step (.wrong, i) c = (.wrong, j) by simp [step, e]]; exact ih j
    | none => rw [show step (.wrong, i) c = (.wrong, initial c) by simp [step, e, closes_wrong]]; exact ih _

/-- When a token ends, things go on as behind a blank. -/
theorem finish_next {i : Inside} {rest : Str} (h : ∀ d r, rest = d :: r → extend i d = none) (p : Phase) :
    finish (rest.foldl step (p, i)) = finish (rest.foldl step (closes i p, .nothing)) := by
  cases rest with
  | nil => rfl
  | cons d r =>
    have hd := h d r rfl
    rw [List.foldl_cons, List.foldl_cons, show step (p, i) d = step (closes i p, .nothing) d by simp only [step, hd]; rfl]

theorem finish_stuck {i : Inside} {rest : Str} (h : ∀ d r, rest = d :: r → extend i d = none) (p : Phase) (hw : closes i p = .wrong) :
    finish (rest.foldl step (p, i)) = .wrong := by
  rw [finish_next h, hw]
  exact wrong_finish _ _

theorem initial_blank {c : Char} (h : Blank c) : initial c = .nothing := by
  obtain ⟨hm, hn⟩ := h
  have key : ∀ n ∈ whiteSpace, n < 48 ∨ 57 < n ∧ n < 65 ∨ 90 < n ∧ n < 95 ∨ 95 < n ∧ n < 97 ∨ 122 < n := by decide
  have hk := key _ hm
  have h1 : ¬ Decimal c := by
    rintro ⟨a, b⟩
    have a : 48 ≤ c.toNat := a
    have b : c.toNat ≤ 57 := b
    omega
  have h2 : ¬ NameStart c := by
    rintro (rfl | ⟨a, b⟩ | ⟨a, b⟩)
    · exact absurd hm (by decide)
    · have a : 97 ≤ c.toNat := a
      have b : c.toNat ≤ 122 := b
      omega
    · have a : 65 ≤ c.toNat := a
      have b : c.toNat ≤ 90 := b
      omega
  simp [initial, h1, h2, show Blank c from ⟨hm, hn⟩]

theorem blanks_step {s : Str} (h : ∀ c ∈ s, Blank c) (p : Phase) : s.foldl step (p, .nothing) = (p, .nothing) := by
  induction s with
  | nil => rfl
  | cons c s ih =>
    rw [List.foldl_cons, show step (p, .nothing) c = (p, .nothing) by
      simp [step, extend, closes, initial_blank (h c (by simp))]]
    exact ih fun d hd => h d (by simp [hd])

theorem string_open (p : Phase) (n : Nat) : ∀ rest : Str, rest.length ≤ n →
    (∀ body more, rest = body ++ '"' :: more → ¬ StringBody body) → finish (rest.foldl step (p, .string)) = .wrong := by
  induction n with
  | zero =>
    intro rest hl _
    cases List.length_eq_zero_iff.1 (Nat.le_zero.1 hl)
    rfl
  | succ n ih =>
    intro rest hl h
    rcases rest with _ | ⟨c, rest⟩
    · rfl
    by_cases h1 : c = '"'
    · subst h1
      exact absurd .nil (h [] rest rfl)
    by_cases h2 : c = '\\'
    · subst h2
      rcases rest with _ | ⟨d, rest⟩
      · rfl
      rw [List.foldl_cons, show step (p, .string) '\\' = (p, .escape) by rfl]
      by_cases h3 : d = '\n'
      · subst h3
        exact finish_stuck (i := .escape) (fun d r e => by cases e; rfl) p rfl
      · rw [List.foldl_cons, show step (p, .escape) d = (p, .string) by simp [step, extend, h3]]
        refine ih rest (by simp at hl; omega) fun body more e hb => h ('\\' :: d :: body) more (by simp [e]) (.escape h3 hb)
    · rw [List.foldl_cons, show step (p, .string) c = (p, .string) by simp [step, extend, h1, h2]]
      exact ih rest (by simp at hl; omega) fun body more e hb => h (c :: body) more (by simp [e]) (.plain h1 h2 hb)

theorem malformed_wrong {c : Char} {rest : Str} {e : ScanError} (hb : ¬ Blank c)
    (h : ∀ s rest' k, s ++ rest' = c :: rest → ¬ Lexeme wordBinary s k) (hm : Malformed c e) (p : Phase) :
    finish ((c :: rest).foldl step (p, .nothing)) = .wrong := by
  rw [List.foldl_cons, show step (p, .nothing) c = (p, initial c) by rfl]
  cases hm with
  | string =>
    refine string_open p _ rest (Nat.le_refl _) fun body more e hb => h ('"' :: (body ++ ['"'])) more _ (by simp [e]) (.string hb)
  | hex hc =>
    rw [show initial c = .hex 0 by rcases hc with rfl | rfl <;> rfl]
    refine finish_stuck (fun d r e => ?_) p rfl
    simp only [extend]
    refine dif_neg fun hd => h [c, d] r _ (by simp [e]) (.hex hc (by simp) (by simp) (by simpa using hd.2))
  | binary =>
    rw [show initial '%' = .percent by rfl]
    refine finish_stuck (fun d r e => ?_) p rfl
    simp only [extend]
    refine if_neg fun hd => ?_
    have hx : ∀ x ∈ [d], Binary x := by simpa using hd
    by_cases hv : wordBinary [d] ≤ 4095
    · exact h ['%', d] r _ (by simp [e]) (.binary (by simp) hx hv)
    · exact h ['%', d] r _ (by simp [e]) (.binaryRange (by simp) hx (by omega))
  | indirect =>
    rw [show initial '[' = .bracket by rfl]
    rcases rest with _ | ⟨d, rest⟩
    · rfl
    by_cases hd : d = 'i' ∨ d = 'I'
    · rw [List.foldl_cons, show step (p, .bracket) d = (p, .register) by simp [step, extend, hd]]
      refine finish_stuck (fun x r e => ?_) p rfl
      simp only [extend]
      refine if_neg fun hx => ?_
      subst hx
      exact h ['[', d, ']'] r _ (by simp [e]) (.indirect hd)
    · refine finish_stuck (fun x r e => ?_) p rfl
      cases e
      simp [extend, hd]
  | other h1 h2 h3 h4 h5 =>
    have d1 : ¬ Decimal c := by
      intro hd
      have hx : ∀ x ∈ [c], Decimal x := by simpa using hd
      by_cases hv : positional 10 [c] ≤ 4095
      · exact h [c] rest _ rfl (.decimal (by simp) hx hv)
      · exact h [c] rest _ rfl (.decimalRange (by simp) hx (by omega))
    have d2 : ¬ NameStart c := fun hn => h [c] rest _ rfl (.name hn (by simp))
    have d3 : c ≠ '\n' := by rintro rfl; exact h ['\n'] rest _ rfl .newline
    have d4 : c ≠ ',' := by rintro rfl; exact h [','] rest _ rfl .comma
    have d5 : c ≠ ':' := by rintro rfl; exact h [':'] rest _ rfl .labelMarker
    have d6 : c ≠ '.' := by rintro rfl; exact h ['.'] rest _ rfl .directiveMarker
    have d7 : c ≠ ';' := by rintro rfl; exact h [';'] rest _ rfl (.comment (by simp))
    rw [show initial c = .bad by simp [initial, d1, d2, hb, d3, d4, d5, d6, d7, h1, h2, h3, h4, h5]]
    exact finish_stuck (fun _ _ _ => rfl) p rfl

theorem longest_finish {s rest : Str} {k : Loc → Token} (h : Longest wordBinary s rest k) (p : Phase) (l : Loc) :
    finish ((s ++ rest).foldl step (p, .nothing)) = finish (rest.foldl step (next p (k l), .nothing)) := by
  obtain ⟨hl, hmax⟩ := h
  obtain ⟨c, t, i, rfl, hg, hc, hx⟩ := lexeme_grows hl
  rw [List.foldl_append, List.foldl_cons, show step (p, .nothing) c = (p, initial c) by rfl, grow_step hg, ← hc p l]
  refine finish_next (fun d r e => Classical.byContradiction fun hn => ?_) p
  obtain ⟨k', hk'⟩ := hx d hn
  have := hmax _ r k' (by simp [e]) hk'
  simp at this
  omega

theorem lex_finish {file before text : Str} {tokens : List Token} (h : Lex wordBinary file before text tokens) :
    ∀ p, finish (text.foldl step (p, .nothing)) = tokens.foldl next p := by
  induction h with
  | done hb =>
    intro p
    rw [blanks_step hb]
    rfl
  | token hb hl _ _ ih =>
    intro p
    rw [List.append_assoc, List.foldl_append, blanks_step hb, longest_finish hl p, ih]
    rfl
  | outOfRange hb hl he =>
    intro p
    obtain ⟨e, rfl⟩ := he
    rw [List.append_assoc, List.foldl_append, blanks_step hb, longest_finish hl p nowhere, next_error, wrong_finish]
    exact (next_error p _ _).symm
  | malformed hb hn hno hm =>
    intro p
    rw [List.foldl_append, blanks_step hb, malformed_wrong hn hno hm]
    exact (next_error p _ _).symm

end Auto

end C8S
