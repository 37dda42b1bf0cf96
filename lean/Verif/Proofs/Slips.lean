import Verif.Proofs.IHex
import Verif.Proofs.Files
import Verif.Proofs.Tool
import Verif.Spec.Slips

/-
Errors in a hex file are detected: a reversible automaton accepts every readable file, and an error leads it to a wrong
state, from which it cannot come back.
-/

namespace C8S

open Spec

/-- Where the automaton is: between lines, or in a line with an even or odd number of digits and their sum so far. -/
inductive Place where
  | start
  | inside (odd : Bool) (sum : BitVec 8)
  deriving DecidableEq

/-- What a digit adds to the sum: 16 times its value if it is the first of a pair. -/
def digitWeight (odd : Bool) (v : Nat) : BitVec 8 := BitVec.ofNat 8 (if odd then v else 16 * v)

/-- One character. -/
def Place.step : Place → Char → Option Place
  | .start, c => if c = ':' then some (.inside false 0) else none
  | .inside odd sum, c =>
    if c = '\n' then (if odd = false ∧ sum = 0 then some .start else none)
    else match readDigit c with
      | some v => some (.inside (!odd) (sum + digitWeight odd v))
      | none => none

/-- A text. -/
def Place.run : Place → Str → Option Place
  | p, [] => some p
  | p, c :: cs => match p.step c with
    | some q => q.run cs
    | none => none

theorem readDigit_lt {c : Char} {v : Nat} (h : readDigit c = some v) : v < 16 := by
  unfold readDigit at h
  split at h
  · next hc =>
    cases h
    have h1 : c.toNat ≤ '9'.toNat := hc.2
    have : '9'.toNat = 57 := rfl
    have : '0'.toNat = 48 := rfl
    omega
  · split at h
    · next hc =>
      cases h
      have h1 : c.toNat ≤ 'F'.toNat := hc.2
      have : 'F'.toNat = 70 := rfl
      have : 'A'.toNat = 65 := rfl
      omega
    · split at h
      · next hc =>
        cases h
        have h1 : c.toNat ≤ 'f'.toNat := hc.2
        have : 'f'.toNat = 102 := rfl
        have : 'a'.toNat = 97 := rfl
        omega
      · cases h

theorem readDigit_colon : readDigit ':' = none := by decide

theorem readDigit_newline : readDigit '\n' = none := by decide

theorem run_append (A B : Str) : ∀ p : Place, p.run (A ++ B) = (p.run A).bind fun q => q.run B := by
  induction A with
  | nil => intro p; rfl
  | cons c A ih =>
    intro p
    show (match p.step c with | some q => q.run (A ++ B) | none => none) =
      ((match p.step c with | some q => q.run A | none => none) : Option Place).bind fun q => q.run B
    cases p.step c with
    | none => rfl
    | some q => exact ih q

/-- The automaton is reversible. -/
theorem step_injective {p q r : Place} {c : Char} (hp : p.step c = some r) (hq : q.step c = some r) : p = q := by
  cases p with
  | start =>
    cases q with
    | start => rfl
    | inside odd sum =>
      simp only [Place.step] at hp hq
      split at hp
      · next hc =>
        subst hc
        cases hp
        rw [if_neg (by decide), readDigit_colon] at hq
        cases hq
      · cases hp
  | inside odd sum =>
    cases q with
    | start =>
      simp only [Place.step] at hp hq
      split at hq
      · next hc =>
        subst hc
        cases hq
        rw [if_neg (by decide), readDigit_colon] at hp
        cases hp
      · cases hq
    | inside odd' sum' =>
      simp only [Place.step] at hp hq
      by_cases hc : c = '\n'
      · rw [if_pos hc] at hp hq
        split at hp
        · next h1 =>
          split at hq
          · next h2 => rw [h1.1, h1.2, h2.1, h2.2]
          · cases hq
        · cases hp
      · rw [if_neg hc] at hp hq
        cases hv : readDigit c with
        | none => rw [hv] at hp; cases hp
        | some v =>
          rw [hv] at hp hq
          simp only [Option.some.injEq] at hp hq
          rw [← hq] at hp
          simp only [Place.inside.injEq] at hp
          have h1 : odd = odd' := by cases odd <;> cases odd' <;> simp_all
          subst h1
          have h2 : sum = sum' := by
            have e := congrArg BitVec.toNat hp.2
            simp only [BitVec.toNat_add] at e
            apply BitVec.eq_of_toNat_eq
            have := sum.isLt
            have := sum'.isLt
            omega
          rw [h2]

theorem run_injective : ∀ (B : Str) {p q r : Place}, p.run B = some r → q.run B = some r → p = q
  | [], p, q, r, hp, hq => by cases hp; cases hq; rfl
  | c :: B, p, q, r, hp, hq => by
    simp only [Place.run] at hp hq
    cases h1 : p.step c with
    | none => rw [h1] at hp; cases hp
    | some p' =>
      cases h2 : q.step c with
      | none => rw [h2] at hq; cases hq
      | some q' =>
        rw [h1] at hp
        rw [h2] at hq
        have := run_injective B hp hq
        subst this
        exact step_injective h1 h2

/-- Every character changes the state. -/
theorem step_ne {p : Place} {c : Char} : p.step c ≠ some p := by
  intro h
  cases p with
  | start =>
    simp only [Place.step] at h
    split at h <;> cases h
  | inside odd sum =>
    simp only [Place.step] at h
    split at h
    · split at h <;> cases h
    · split at h
      · simp only [Option.some.injEq, Place.inside.injEq] at h
        cases odd <;> cases h.1
      · cases h

theorem digitWeight_injective {odd : Bool} {v w : Nat} (hv : v < 16) (hw : w < 16)
    (h : digitWeight odd v = digitWeight odd w) : v = w := by
  unfold digitWeight at h
  have h' := congrArg BitVec.toNat h
  simp only [BitVec.toNat_ofNat] at h'
  cases odd <;> simp at h' <;> omega

/-- From one state, two characters lead to the same one only if they are digits of the same value. -/
theorem step_eq {p q : Place} {c d : Char} (hc : p.step c = some q) (hd : p.step d = some q) :
    c = d ∨ ∃ v, readDigit c = some v ∧ readDigit d = some v := by
  cases p with
  | start =>
    simp only [Place.step] at hc hd
    split at hc
    · split at hd
      · left; simp_all
      · cases hd
    · cases hc
  | inside odd sum =>
    simp only [Place.step] at hc hd
    by_cases h1 : c = '\n'
    · rw [if_pos h1] at hc
      split at hc
      · cases hc
        by_cases h2 : d = '\n'
        · left; rw [h1, h2]
        · rw [if_neg h2] at hd
          split at hd <;> cases hd
      · cases hc
    · rw [if_neg h1] at hc
      split at hc
      · next v hv =>
        by_cases h2 : d = '\n'
        · rw [if_pos h2] at hd
          split at hd
          · cases hd; cases hc
          · cases hd
        · rw [if_neg h2] at hd
          split at hd
          · next w hw =>
            rw [← hd] at hc
            simp only [Option.some.injEq, Place.inside.injEq, true_and] at hc
            have h3 : digitWeight odd v = digitWeight odd w := by
              have e := congrArg BitVec.toNat hc
              simp only [BitVec.toNat_add] at e
              apply BitVec.eq_of_toNat_eq
              have := (digitWeight odd v).isLt
              have := (digitWeight odd w).isLt
              omega
            have h4 := digitWeight_injective (readDigit_lt hv) (readDigit_lt hw) h3
            right
            exact ⟨v, hv, by rw [hw, h4]⟩
          · cases hd
      · cases hc

/-- In a line, a character other than the newline is a digit. -/
theorem step_inside {odd : Bool} {sum : BitVec 8} {c : Char} {q : Place} (h : (Place.inside odd sum).step c = some q)
    (hc : c ≠ '\n') : ∃ v, readDigit c = some v ∧ q = .inside (!odd) (sum + digitWeight odd v) := by
  simp only [Place.step] at h
  rw [if_neg hc] at h
  split at h
  · next v hv => cases h; exact ⟨v, hv, rfl⟩
  · cases h

/-- Two characters in either order lead to the same state only if they are digits of the same value. -/
theorem step_swap {p q q' r : Place} {c d : Char} (h1 : p.step c = some q) (h2 : q.step d = some r)
    (h3 : p.step d = some q') (h4 : q'.step c = some r) : c = d ∨ ∃ v, readDigit c = some v ∧ readDigit d = some v := by
  cases p with
  | start =>
    simp only [Place.step] at h1 h3
    split at h1
    · split at h3
      · left; simp_all
      · cases h3
    · cases h1
  | inside odd sum =>
    by_cases hc : c = '\n'
    · by_cases hd : d = '\n'
      · left; rw [hc, hd]
      · obtain ⟨v, hv, rfl⟩ := step_inside h3 hd
        subst hc
        simp only [Place.step] at h1
        rw [if_pos trivial] at h1
        split at h1
        · cases h1
          simp only [Place.step] at h2
          split at h2
          · next hd => rw [hd, readDigit_colon] at hv; cases hv
          · cases h2
        · cases h1
    · obtain ⟨v, hv, rfl⟩ := step_inside h1 hc
      by_cases hd : d = '\n'
      · subst hd
        simp only [Place.step] at h3
        rw [if_pos trivial] at h3
        split at h3
        · cases h3
          simp only [Place.step] at h4
          split at h4
          · next hc => rw [hc, readDigit_colon] at hv; cases hv
          · cases h4
        · cases h3
      · obtain ⟨w, hw, rfl⟩ := step_inside h3 hd
        obtain ⟨w', hw', rfl⟩ := step_inside h2 hd
        obtain ⟨v', hv', e⟩ := step_inside h4 hc
        rw [hv] at hv'
        rw [hw] at hw'
        cases hv'
        cases hw'
        right
        refine ⟨v, hv, ?_⟩
        rw [hw]
        simp only [Place.inside.injEq, true_and] at e
        have lv := readDigit_lt hv
        have lw := readDigit_lt hw
        have e' := congrArg BitVec.toNat e
        simp only [digitWeight, BitVec.toNat_add, BitVec.toNat_ofNat] at e'
        have := sum.isLt
        congr 1
        cases odd <;> simp at e' <;> omega

/-- The digits of a line. -/
theorem run_pairs : ∀ (digits : Str) (bytes : List Nat) (sum : BitVec 8), readPairs digits = some bytes →
    (Place.inside false sum).run digits = some (.inside false (sum + BitVec.ofNat 8 bytes.sum))
  | [], bytes, sum, h => by
    cases h
    simp [Place.run]
  | [_], _, _, h => by cases h
  | c :: d :: rest, bytes, sum, h => by
    simp only [readPairs] at h
    split at h
    · next hi lo bs h1 h2 h3 =>
      cases h
      have nc : c ≠ '\n' := fun e => by rw [e, readDigit_newline] at h1; cases h1
      have nd : d ≠ '\n' := fun e => by rw [e, readDigit_newline] at h2; cases h2
      simp only [Place.run, Place.step, if_neg nc, if_neg nd, h1, h2, Bool.not_false, Bool.not_true]
      rw [run_pairs rest bs _ h3]
      congr 2
      apply BitVec.eq_of_toNat_eq
      simp only [digitWeight, BitVec.toNat_add, BitVec.toNat_ofNat, List.sum_cons]
      simp
      omega
    · cases h

/-- A readable record leads back to the start. -/
theorem run_record {line rest : Str} {r : HexRecord} (h : readRecord line = some r) :
    Place.start.run (line ++ '\n' :: rest) = Place.start.run rest := by
  unfold readRecord at h
  split at h
  · next digits =>
    split at h
    · next length high low type bytes hp =>
      have hs : (length :: high :: low :: type :: bytes).sum % 256 = 0 := by
        by_cases hs : (length :: high :: low :: type :: bytes).sum % 256 = 0
        · exact hs
        · rw [if_pos hs] at h
          split at h <;> cases h
      have hr := run_pairs digits _ 0 hp
      show (Place.inside false 0).run (digits ++ '\n' :: rest) = _
      rw [run_append, hr]
      show (match (Place.inside false _).step '\n' with | some q => q.run rest | none => none) = _
      have hz : (0 : BitVec 8) + BitVec.ofNat 8 (length :: high :: low :: type :: bytes).sum = 0 := by
        apply BitVec.eq_of_toNat_eq
        simp only [BitVec.toNat_add, BitVec.toNat_ofNat, hs]
        rfl
      rw [hz]
      rfl
    · cases h
  · cases h

/-- The lines put together give the text. -/
theorem linesOf_text : ∀ (text line : Str) (lines : List Str), linesOf line text = some lines →
    line ++ text = lines.flatMap (· ++ ['\n'])
  | [], line, lines, h => by
    simp only [linesOf] at h
    split at h
    · next e => cases h; rw [e]; rfl
    · cases h
  | c :: text, line, lines, h => by
    simp only [linesOf] at h
    split at h
    · next e =>
      subst e
      cases hl : linesOf [] text with
      | none => rw [hl] at h; cases h
      | some ls =>
        rw [hl] at h
        cases h
        have := linesOf_text text [] ls hl
        simp only [List.nil_append] at this
        simp [this]
    · have := linesOf_text text _ lines h
      rw [← this]
      simp

/-- The records lead back to the start. -/
theorem run_records : ∀ (lines : List Str) (m : List (Nat × Nat)), readRecords lines = some m →
    Place.start.run (lines.flatMap (· ++ ['\n'])) = some .start
  | [], m, h => by cases h
  | line :: rest, m, h => by
    simp only [readRecords] at h
    rw [List.flatMap_cons, List.append_assoc, List.singleton_append]
    split at h
    · next a bytes hr =>
      rw [run_record hr]
      cases hm : readRecords rest with
      | none => rw [hm] at h; cases h
      | some m' => exact run_records rest m' hm
    · next hr =>
      rw [run_record hr]
      split at h
      · next e => rw [e]; rfl
      · cases h
    · cases h

/-- The automaton accepts every readable file. -/
theorem run_file {text : Str} {m : List (Nat × Nat)} (h : readHex text = some m) :
    Place.start.run text = some .start := by
  unfold readHex at h
  split at h
  · next lines hl =>
    have := linesOf_text text [] lines hl
    rw [List.nil_append] at this
    rw [this]
    exact run_records lines m h
  · cases h

/-- Two readable texts with the same ends lead to the same state in between. -/
theorem run_between {A B C D : Str} {m m' : List (Nat × Nat)} (h : readHex (A ++ C ++ B) = some m)
    (h' : readHex (A ++ D ++ B) = some m') : ∃ p q, Place.run p C = some q ∧ Place.run p D = some q := by
  have r := run_file h
  have r' := run_file h'
  rw [List.append_assoc, run_append] at r r'
  cases ha : Place.start.run A with
  | none => rw [ha] at r; cases r
  | some p =>
    rw [ha] at r r'
    simp only [Option.bind_some] at r r'
    rw [run_append] at r r'
    cases hc : p.run C with
    | none => rw [hc] at r; cases r
    | some q =>
      cases hd : p.run D with
      | none => rw [hd] at r'; cases r'
      | some q' =>
        rw [hc] at r
        rw [hd] at r'
        have := run_injective B r r'
        subst this
        exact ⟨p, q, hc, hd⟩

theorem run_single {p q : Place} {c : Char} (h : p.run [c] = some q) : p.step c = some q := by
  simp only [Place.run] at h
  split at h
  · next r hr => cases h; exact hr
  · cases h

theorem run_two {p r : Place} {c d : Char} (h : p.run [c, d] = some r) :
    ∃ q, p.step c = some q ∧ q.step d = some r := by
  simp only [Place.run] at h
  split at h
  · next q hq =>
    split at h
    · next r' hr => cases h; exact ⟨q, hq, hr⟩
    · cases h
  · cases h

/-- After an error a readable file is no longer readable, unless a digit became another one of the same value. -/
theorem slip_digits {text text' : Str} {m m' : List (Nat × Nat)} (h : Slip text text') (hm : readHex text = some m)
    (hm' : readHex text' = some m') : ∃ A B c d v, readDigit c = some v ∧ readDigit d = some v ∧ c ≠ d ∧
      (text = A ++ c :: B ∧ text' = A ++ d :: B ∨ text = A ++ c :: d :: B ∧ text' = A ++ d :: c :: B) := by
  cases h with
  | @changed A B c d hne =>
    obtain ⟨p, q, h1, h2⟩ := run_between (A := A) (B := B) (C := [c]) (D := [d]) (by simpa using hm) (by simpa using hm')
    rcases step_eq (run_single h1) (run_single h2) with e | ⟨v, hv, hw⟩
    · exact absurd e hne
    · exact ⟨A, B, c, d, v, hv, hw, hne, .inl ⟨rfl, rfl⟩⟩
  | @lost A B c =>
    obtain ⟨p, q, h1, h2⟩ := run_between (A := A) (B := B) (C := [c]) (D := []) (by simpa using hm) (by simpa using hm')
    cases h2
    exact absurd (run_single h1) step_ne
  | @added A B c =>
    obtain ⟨p, q, h1, h2⟩ := run_between (A := A) (B := B) (C := []) (D := [c]) (by simpa using hm) (by simpa using hm')
    cases h1
    exact absurd (run_single h2) step_ne
  | @swapped A B c d hne =>
    obtain ⟨p, q, h1, h2⟩ := run_between (A := A) (B := B) (C := [c, d]) (D := [d, c]) (by simpa using hm)
      (by simpa using hm')
    obtain ⟨q1, h3, h4⟩ := run_two h1
    obtain ⟨q2, h5, h6⟩ := run_two h2
    rcases step_swap h3 h4 h5 h6 with e | ⟨v, hv, hw⟩
    · exact absurd e hne
    · exact ⟨A, B, c, d, v, hv, hw, hne, .inr ⟨rfl, rfl⟩⟩

/-- Of two digits with the same value, one is lower case. -/
theorem readDigit_same {c d : Char} {v : Nat} (hc : readDigit c = some v) (hd : readDigit d = some v)
    (lc : ¬ ('a' ≤ c ∧ c ≤ 'f')) (ld : ¬ ('a' ≤ d ∧ d ≤ 'f')) : c = d := by
  have key : ∀ {c : Char}, readDigit c = some v → ¬ ('a' ≤ c ∧ c ≤ 'f') →
      (48 ≤ c.toNat ∧ c.toNat ≤ 57 ∧ v = c.toNat - 48) ∨ (65 ≤ c.toNat ∧ c.toNat ≤ 70 ∧ v = c.toNat - 65 + 10) := by
    intro c h l
    unfold readDigit at h
    split at h
    · next hr =>
      cases h
      exact .inl ⟨hr.1, hr.2, rfl⟩
    · split at h
      · next hr =>
        cases h
        exact .inr ⟨hr.1, hr.2, rfl⟩
      · cases h
  have e : c.toNat = d.toNat := by
    rcases key hc lc with ⟨_, _, _⟩ | ⟨_, _, _⟩ <;> rcases key hd ld with ⟨_, _, _⟩ | ⟨_, _, _⟩ <;> omega
  exact Char.toNat_inj.1 e

/-- A lower-case digit made upper case. -/
def upcase (c : Char) : Char := if 'a' ≤ c ∧ c ≤ 'f' then Char.ofNat (c.toNat - 32) else c

theorem lower_cases {c : Char} (h : 'a' ≤ c ∧ c ≤ 'f') : c ∈ "abcdef".toList := by
  have h1 : 97 ≤ c.toNat := h.1
  have h2 : c.toNat ≤ 102 := h.2
  have key : ∀ n : Fin 103, 97 ≤ n.val → Char.ofNat n.val ∈ "abcdef".toList := by decide +kernel
  have := key ⟨c.toNat, by omega⟩ h1
  rwa [show Char.ofNat c.toNat = c from Char.ofNat_toNat c] at this

theorem lower_facts : ∀ c ∈ "abcdef".toList, readDigit (Char.ofNat (c.toNat - 32)) = readDigit c ∧
    Char.ofNat (c.toNat - 32) ≠ '\n' ∧ c ≠ '\n' ∧ Char.ofNat (c.toNat - 32) ≠ ':' ∧ c ≠ ':' ∧
    ¬ ('a' ≤ Char.ofNat (c.toNat - 32) ∧ Char.ofNat (c.toNat - 32) ≤ 'f') := by decide +kernel

theorem readDigit_upcase (c : Char) : readDigit (upcase c) = readDigit c := by
  unfold upcase
  split
  · next h => exact (lower_facts c (lower_cases h)).1
  · rfl

theorem upcase_newline (c : Char) : upcase c = '\n' ↔ c = '\n' := by
  unfold upcase
  split
  · next h => have := lower_facts c (lower_cases h); exact ⟨fun e => absurd e this.2.1, fun e => absurd e this.2.2.1⟩
  · exact Iff.rfl

theorem upcase_colon (c : Char) : upcase c = ':' ↔ c = ':' := by
  unfold upcase
  split
  · next h => have := lower_facts c (lower_cases h); exact ⟨fun e => absurd e this.2.2.2.1, fun e => absurd e this.2.2.2.2.1⟩
  · exact Iff.rfl

theorem upcase_upper (c : Char) : ¬ ('a' ≤ upcase c ∧ upcase c ≤ 'f') := by
  unfold upcase
  split
  · next h => exact (lower_facts c (lower_cases h)).2.2.2.2.2
  · assumption

theorem upcase_same {c d : Char} {v : Nat} (hc : readDigit c = some v) (hd : readDigit d = some v) : upcase c = upcase d :=
  readDigit_same (v := v) (by rw [readDigit_upcase, hc]) (by rw [readDigit_upcase, hd]) (upcase_upper c) (upcase_upper d)

theorem readPairs_upcase : ∀ s : Str, readPairs (s.map upcase) = readPairs s
  | [] => rfl
  | [_] => rfl
  | c :: d :: rest => by
    simp only [List.map_cons, readPairs, readDigit_upcase, readPairs_upcase rest]

theorem readRecord_upcase (s : Str) : readRecord (s.map upcase) = readRecord s := by
  cases s with
  | nil => rfl
  | cons c s =>
    by_cases h : c = ':'
    · subst h
      rw [List.map_cons, (upcase_colon ':').2 rfl]
      simp only [readRecord, readPairs_upcase]
    · have h' : upcase c ≠ ':' := fun e => h ((upcase_colon c).1 e)
      rw [List.map_cons]
      unfold readRecord
      split
      · next e => simp only [List.cons.injEq] at e; exact absurd e.1 h'
      · split
        · next e => simp only [List.cons.injEq] at e; exact absurd e.1 h
        · rfl

theorem linesOf_upcase : ∀ (text line : Str),
    linesOf (line.map upcase) (text.map upcase) = (linesOf line text).map (·.map (·.map upcase))
  | [], line => by
    simp only [List.map_nil, linesOf, List.map_eq_nil_iff]
    split <;> rfl
  | c :: text, line => by
    simp only [List.map_cons, linesOf, upcase_newline]
    split
    · have := linesOf_upcase text []
      rw [List.map_nil] at this
      rw [this]
      cases linesOf [] text <;> rfl
    · have := linesOf_upcase text (line ++ [c])
      simpa using this

theorem readRecords_upcase : ∀ lines : List Str, readRecords (lines.map (·.map upcase)) = readRecords lines
  | [] => rfl
  | line :: rest => by
    simp only [List.map_cons, readRecords, readRecord_upcase, readRecords_upcase rest, List.map_eq_nil_iff]

/-- The case of the digits does not matter. -/
theorem readHex_upcase (text : Str) : readHex (text.map upcase) = readHex text := by
  unfold readHex
  have := linesOf_upcase text []
  rw [List.map_nil] at this
  rw [this]
  cases linesOf [] text with
  | none => rfl
  | some lines => exact readRecords_upcase lines

/-- Lines of a text in two parts. -/
theorem linesOf_append : ∀ (A B line : Str) (lines : List Str), linesOf line A = some lines →
    linesOf line (A ++ B) = (linesOf [] B).map (lines ++ ·)
  | [], B, line, lines, h => by
    simp only [linesOf] at h
    split at h
    · next e => cases h; subst e; simp
    · cases h
  | c :: A, B, line, lines, h => by
    simp only [linesOf] at h
    show (if c = '\n' then (linesOf [] (A ++ B)).map (line :: ·) else linesOf (line ++ [c]) (A ++ B)) = _
    split at h
    · next e =>
      rw [if_pos e]
      cases hl : linesOf [] A with
      | none => rw [hl] at h; cases h
      | some ls =>
        rw [hl] at h
        cases h
        rw [linesOf_append A B [] ls hl]
        cases linesOf [] B <;> simp
    · next e =>
      rw [if_neg e]
      exact linesOf_append A B _ lines h

theorem readRecords_append : ∀ (lines more : List Str) (m m' : List (Nat × Nat)), readRecords lines = some m →
    readRecords (lines ++ more) = some m' → more = []
  | [], _, _, _, h, _ => by cases h
  | line :: rest, more, m, m', h, h' => by
    rw [List.cons_append] at h'
    simp only [readRecords] at h h'
    split at h
    · next a bytes hr =>
      rw [hr] at h'
      cases hm : readRecords rest with
      | none => rw [hm] at h; cases h
      | some m1 =>
        cases hm' : readRecords (rest ++ more) with
        | none => simp only [hm'] at h'; cases h'
        | some m2 => exact readRecords_append rest more m1 m2 hm hm'
    · next hr =>
      rw [hr] at h'
      split at h
      · next e =>
        subst e
        simp only [List.nil_append] at h'
        split at h'
        · assumption
        · cases h'
      · cases h
    · cases h

/-- No readable file continues another one. -/
theorem readHex_append {A B : Str} {m m' : List (Nat × Nat)} (h : readHex A = some m) (h' : readHex (A ++ B) = some m') :
    B = [] := by
  unfold readHex at h h'
  split at h
  · next lines hl =>
    rw [linesOf_append A B [] lines hl] at h'
    cases hb : linesOf [] B with
    | none => rw [hb] at h'; cases h'
    | some more =>
      rw [hb] at h'
      have := readRecords_append lines more m m' h h'
      subst this
      have := linesOf_text B [] [] hb
      simpa using this
  · cases h

/-- The automaton reads only these characters. -/
theorem step_char {p q : Place} {c : Char} (h : p.step c = some q) : c = ':' ∨ c = '\n' ∨ ∃ v, readDigit c = some v := by
  cases p with
  | start =>
    simp only [Place.step] at h
    split at h
    · next e => exact .inl e
    · cases h
  | inside odd sum =>
    by_cases e : c = '\n'
    · exact .inr (.inl e)
    · obtain ⟨v, hv, _⟩ := step_inside h e
      exact .inr (.inr ⟨v, hv⟩)

theorem readDigit_ascii {c : Char} {v : Nat} (h : readDigit c = some v) : c.toNat < 128 := by
  unfold readDigit at h
  split at h
  · next hc => exact Nat.lt_of_le_of_lt (show c.toNat ≤ '9'.toNat from hc.2) (by decide)
  · split at h
    · next hc => exact Nat.lt_of_le_of_lt (show c.toNat ≤ 'F'.toNat from hc.2) (by decide)
    · split at h
      · next hc => exact Nat.lt_of_le_of_lt (show c.toNat ≤ 'f'.toNat from hc.2) (by decide)
      · cases h

theorem run_ascii : ∀ (text : Str) {p q : Place}, p.run text = some q → ∀ c ∈ text, c.toNat < 128
  | [], _, _, _ => by simp
  | c :: text, p, q, h => by
    simp only [Place.run] at h
    cases hs : p.step c with
    | none => rw [hs] at h; cases h
    | some r =>
      rw [hs] at h
      intro d hd
      rcases List.mem_cons.1 hd with rfl | hd
      · rcases step_char hs with rfl | rfl | ⟨v, hv⟩
        · decide
        · decide
        · exact readDigit_ascii hv
      · exact run_ascii text h d hd

theorem utf8_ascii_one {c : Char} (h : c.toNat < 128) : (String.utf8EncodeChar c).length = 1 := by
  rw [String.length_utf8EncodeChar]
  have h' : c.val ≤ 0x7f := by
    show c.val.toNat ≤ 127
    have : c.val.toNat = c.toNat := rfl
    omega
  simp [Char.utf8Size, h']

theorem utf8Bytes_take : ∀ (text : Str) (n : Nat), (∀ c ∈ text, c.toNat < 128) →
    (utf8Bytes text).take n = utf8Bytes (text.take n)
  | [], n, _ => by simp [utf8Bytes]
  | c :: text, 0, _ => by simp [utf8Bytes]
  | c :: text, n + 1, h => by
    have ih := utf8Bytes_take text n fun d hd => h d (List.mem_cons_of_mem _ hd)
    obtain ⟨b, hb⟩ := List.length_eq_one_iff.1 (utf8_ascii_one (h c List.mem_cons_self))
    simp only [utf8Bytes, List.flatMap_cons, List.take_succ_cons, hb, List.map_cons, List.map_nil] at ih ⊢
    simp only [List.singleton_append, List.take_succ_cons, ih]

/-- What is written of a readable text is readable only if it is all of it. -/
theorem readHex_take {hex t : Str} {m m' : List (Nat × Nat)} {n : Nat} (h : readHex hex = some m)
    (ht : utf8 t = (utf8 hex).take n) (h' : readHex t = some m') : t = hex := by
  rw [← utf8Bytes_eq, ← utf8Bytes_eq, utf8Bytes_take hex n (run_ascii hex (run_file h)), utf8Bytes_eq, utf8Bytes_eq] at ht
  have e := utf8_inj ht
  subst e
  have h2 : readHex (hex.take n ++ hex.drop n) = some m := by rw [List.take_append_drop]; exact h
  have := readHex_append h' h2
  conv => rhs; rw [← List.take_append_drop n hex, this]
  simp

theorem hexChar_upper : ∀ c ∈ ":0123456789ABCDEF\n".toList, ¬ ('a' ≤ c ∧ c ≤ 'f') := by decide +kernel

/-- What is written: a beginning of the text. -/
theorem writeResult_bytes (env : Env) (program output hex : Str) :
    ∃ n, bytesTo (destination output) (writeResult env program output hex).events = (utf8 hex).take n := by
  unfold writeResult
  simp only [utf8Bytes_eq]
  split
  · exact ⟨0, rfl⟩
  · rename_i evs hev
    have hevs : bytesTo (destination output) evs = [] := by
      split at hev
      · cases hev; rfl
      · split at hev
        · cases hev
        · cases hev; rfl
    split
    · refine ⟨(utf8 hex).length, ?_⟩
      show List.flatMap _ _ = _
      rw [List.flatMap_append]
      show bytesTo (destination output) evs ++ _ = _
      rw [hevs]
      simp [destination]
    · next reason n _ =>
      refine ⟨n, ?_⟩
      show List.flatMap _ _ = _
      rw [List.flatMap_append]
      show bytesTo (destination output) evs ++ _ = _
      rw [hevs]
      simp [destination, logProgramError]

theorem bytesTo_none {d : Dest} {events : List Event} (h : NoOutput events) : bytesTo d events = [] := by
  rw [bytesTo, List.flatMap_eq_nil_iff]
  intro e he
  split
  · rename_i d b
    exact ((h _ he).2 d b rfl).elim
  · rfl

end C8S
