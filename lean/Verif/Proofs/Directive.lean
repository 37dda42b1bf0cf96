import Verif.Spec.Directive
import Verif.Proofs.Case

namespace C8S

open Spec

theorem utf8Bytes_eq (s : Str) : utf8Bytes s = utf8 s := by
  unfold utf8Bytes utf8
  simp [List.utf8Encode, List.map_flatMap]

theorem byte_literal {n : Nat} (h : n ≤ 0xFF) : (BitVec.ofNat 8 (n &&& 0x00FF) : U8).toNat = n := by
  have : n &&& 255 = n % 256 := Nat.and_two_pow_sub_one_eq_mod n 8
  rw [BitVec.toNat_ofNat, this]
  omega

/-- The `.db` loop collects exactly the bytes of the arguments. -/
theorem dbLoop_ok {args : List Literal} {acc bytes : List U8} (h : EmitsAll args bytes) :
    Directive.dbLoop args acc = .ok (acc ++ bytes) := by
  induction h generalizing acc with
  | nil => simp [Directive.dbLoop]
  | @number b args bytes _ ih =>
    have hb := b.isLt
    have e : (BitVec.ofNat 8 (b.toNat &&& 0x00FF) : U8) = b := BitVec.eq_of_toNat_eq (byte_literal (by omega))
    rw [Directive.dbLoop, if_neg (by omega), ih, e, List.append_assoc]
    rfl
  | @string s args bytes _ ih => rw [Directive.dbLoop, ih, utf8Bytes_eq, List.append_assoc]

/-- It stops at the first number that is not a byte. -/
theorem dbLoop_error {args : List Literal} {acc bytes : List U8} {n : Nat} {rest : List Literal}
    (h : EmitsAll args bytes) (hn : 0xFF < n) :
    Directive.dbLoop (args ++ .numeric n :: rest) acc
      = .error (.allNumericParametersMustBeByteLiterals DirectiveNames.db n) := by
  induction h generalizing acc with
  | nil => simp only [List.nil_append, Directive.dbLoop]; rw [if_pos hn]
  | @number b args bytes _ ih =>
    have hb := b.isLt
    rw [List.cons_append, Directive.dbLoop, if_neg (by omega), ih]
  | string _ ih => rw [List.cons_append, Directive.dbLoop, ih]

/-- Every argument list is of one of the two kinds. -/
theorem emitsAll_or_not (args : List Literal) :
    (∃ bytes, EmitsAll args bytes) ∨
    ∃ before bytes n after, args = before ++ .numeric n :: after ∧ EmitsAll before bytes ∧ 0xFF < n := by
  induction args with
  | nil => exact .inl ⟨_, .nil⟩
  | cons a args ih =>
    have step : (∃ bs, ∀ {args' : List Literal} {bytes}, EmitsAll args' bytes →
        EmitsAll (a :: args') (bs ++ bytes)) ∨ ∃ n, a = .numeric n ∧ 0xFF < n := by
      cases a with
      | string s => exact .inl ⟨utf8 s, fun h => .string h⟩
      | numeric n =>
        by_cases h : n ≤ 0xFF
        · refine .inl ⟨[BitVec.ofNat 8 (n &&& 0x00FF)], fun {args' bytes} h' => ?_⟩
          have := EmitsAll.number (b := BitVec.ofNat 8 (n &&& 0x00FF)) h'
          rw [byte_literal h] at this
          exact this
        · exact .inr ⟨n, rfl, by omega⟩
    rcases step with ⟨bs, step⟩ | ⟨n, rfl, hn⟩
    · rcases ih with ⟨bytes, h⟩ | ⟨before, bytes, n, after, rfl, h, hn⟩
      · exact .inl ⟨_, step h⟩
      · exact .inr ⟨a :: before, _, n, after, rfl, step h, hn⟩
    · exact .inr ⟨[], [], n, args, rfl, .nil, hn⟩

theorem org_iff (name : Str) : toLowercase name = DirectiveNames.org ↔ SameLetters name "org".toList :=
  toLowercase_eq_const (by decide) (by decide)
theorem db_iff (name : Str) : toLowercase name = DirectiveNames.db ↔ SameLetters name "db".toList :=
  toLowercase_eq_const (by decide) (by decide)
theorem equ_iff (name : Str) : toLowercase name = DirectiveNames.equ ↔ SameLetters name "equ".toList :=
  toLowercase_eq_const (by decide) (by decide)

/-- No string is the same, up to case, as two of the constants. -/
theorem sameLetters_excl {name a b : Str} (ha : SameLetters name a) (hb : SameLetters name b)
    (h : ¬ SameLetters a b) : False := h (ha.symm.trans hb)

theorem directive_means {name : Str} {args : List Literal} {d : Directive} (h : DirectiveMeans name args d) :
    Directive.fromIdentifierAndParameters name args = .ok d := by
  unfold Directive.fromIdentifierAndParameters
  simp only [org_iff, db_iff, equ_iff]
  cases h with
  | org address hn =>
    have := address.isLt
    rw [if_pos hn]
    simp only []
    rw [if_pos (by omega)]
    simp
  | equ value hn =>
    have := value.isLt
    rw [if_neg (fun h => sameLetters_excl hn h (by decide)), if_neg (fun h => sameLetters_excl hn h (by decide)),
      if_pos hn]
    simp only []
    rw [if_pos (by omega)]
    simp
  | db hn hne hb =>
    rw [if_neg (fun h => sameLetters_excl hn h (by decide)), if_pos hn, if_neg (by simpa using hne), dbLoop_ok hb]
    simp

theorem directive_fails {name : Str} {args : List Literal} {e : DirectiveError} (h : DirectiveFails name args e) :
    Directive.fromIdentifierAndParameters name args = .error e := by
  unfold Directive.fromIdentifierAndParameters
  simp only [org_iff, db_iff, equ_iff]
  have c1 : ∀ {x y z : Except DirectiveError Directive} {canonical : Str},
      canonical = "org".toList ∨ canonical = "equ".toList → SameLetters name canonical →
      x = z ∧ canonical = "org".toList ∨ y = z ∧ canonical = "equ".toList →
      (if SameLetters name "org".toList then x else
        if SameLetters name "db".toList then
          if args.length = 0 then .error (.incorrectNumberOfParameters DirectiveNames.db 0 1 true)
          else match Directive.dbLoop args [] with
            | .error e => .error e
            | .ok bytes => .ok (.db bytes)
        else if SameLetters name "equ".toList then y
        else .error (.unrecognizedDirective name)) = z := by
    intro x y z canonical h0 hn h
    rcases h with ⟨h, rfl⟩ | ⟨h, rfl⟩
    · rw [if_pos hn]; exact h
    · rw [if_neg (fun h => sameLetters_excl hn h (by decide)),
        if_neg (fun h => sameLetters_excl hn h (by decide)), if_pos hn]; exact h
  cases h with
  | count hc hn hl =>
    refine c1 hc hn ?_
    rcases hc with rfl | rfl
    · refine .inl ⟨?_, rfl⟩
      split
      · simp at hl
      · simp at hl
      · rfl
    · refine .inr ⟨?_, rfl⟩
      split
      · simp at hl
      · simp at hl
      · rfl
  | string hc hn =>
    refine c1 hc hn ?_
    rcases hc with rfl | rfl
    · exact .inl ⟨rfl, rfl⟩
    · exact .inr ⟨rfl, rfl⟩
  | range hc hn hr =>
    refine c1 hc hn ?_
    rcases hc with rfl | rfl
    · exact .inl ⟨if_neg (by omega), rfl⟩
    · exact .inr ⟨if_neg (by omega), rfl⟩
  | dbEmpty hn =>
    rw [if_neg (fun h => sameLetters_excl hn h (by decide)), if_pos hn]
    rfl
  | dbByte hn hb hr =>
    rw [if_neg (fun h => sameLetters_excl hn h (by decide)), if_pos hn, if_neg (by simp), dbLoop_error hb hr]
    rfl
  | unknown h1 h2 h3 => rw [if_neg h1, if_neg h2, if_neg h3]

/-- Every name and argument list is valid or invalid according to the specification. -/
theorem directive_total (name : Str) (args : List Literal) :
    (∃ d, DirectiveMeans name args d) ∨ ∃ e, DirectiveFails name args e := by
  by_cases h1 : SameLetters name "org".toList
  · match args with
    | [.numeric n] =>
      by_cases h : n ≤ 0xFFF
      · have := DirectiveMeans.org (BitVec.ofNat 12 n) h1
        rw [BitVec.toNat_ofNat, Nat.mod_eq_of_lt (by omega)] at this
        exact .inl ⟨_, this⟩
      · exact .inr ⟨_, .range (.inl rfl) h1 (by omega)⟩
    | [.string s] => exact .inr ⟨_, .string (.inl rfl) h1⟩
    | [] => exact .inr ⟨_, .count (.inl rfl) h1 (by simp)⟩
    | _ :: _ :: _ => exact .inr ⟨_, .count (.inl rfl) h1 (by simp)⟩
  · by_cases h2 : SameLetters name "db".toList
    · match args with
      | [] => exact .inr ⟨_, .dbEmpty h2⟩
      | a :: args =>
        rcases emitsAll_or_not (a :: args) with ⟨bytes, h⟩ | ⟨before, bytes, n, after, e, h, hn⟩
        · exact .inl ⟨_, .db h2 (by simp) h⟩
        · rw [e]
          exact .inr ⟨_, .dbByte h2 h hn⟩
    · by_cases h3 : SameLetters name "equ".toList
      · match args with
        | [.numeric n] =>
          by_cases h : n ≤ 0xFFF
          · have := DirectiveMeans.equ (BitVec.ofNat 12 n) h3
            rw [BitVec.toNat_ofNat, Nat.mod_eq_of_lt (by omega)] at this
            exact .inl ⟨_, this⟩
          · exact .inr ⟨_, .range (.inr rfl) h3 (by omega)⟩
        | [.string s] => exact .inr ⟨_, .string (.inr rfl) h3⟩
        | [] => exact .inr ⟨_, .count (.inr rfl) h3 (by simp)⟩
        | _ :: _ :: _ => exact .inr ⟨_, .count (.inr rfl) h3 (by simp)⟩
      · exact .inr ⟨_, .unknown h1 h2 h3⟩

end C8S
