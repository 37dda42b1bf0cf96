import Verif.Model.Work
import Verif.Props.Bounds

/- Helper lemmas for C113. -/

namespace C8S.Work

open Spec

/-! ### The result does not depend on the count -/

@[simp] theorem run_pure {α : Type} (a : α) : (pure a : Work α).run = .ret a := rfl
@[simp] theorem run_tick (n : Nat) : (tick n).run = .ret () := rfl
@[simp] theorem run_step {α : Type} (r : Run α) : (step r).run = r := rfl
@[simp] theorem run_free {α : Type} (r : Run α) : (free r).run = r := rfl
@[simp] theorem steps_pure {α : Type} (a : α) : (pure a : Work α).steps = 0 := rfl
@[simp] theorem steps_tick (n : Nat) : (tick n).steps = n := rfl
@[simp] theorem steps_step {α : Type} (r : Run α) : (step r).steps = 1 := rfl
@[simp] theorem steps_free {α : Type} (r : Run α) : (free r).steps = 0 := rfl

theorem run_bind {α β : Type} (m : Work α) (f : α → Work β) : (m >>= f).run = m.run >>= fun a => (f a).run := by
  show (match m.run with | .ret a => (⟨(f a).run, m.steps + (f a).steps⟩ : Work β) | .panic => ⟨.panic, m.steps⟩).run = _
  cases h : m.run <;> rfl

theorem steps_bind {α β : Type} {m : Work α} {f : α → Work β} {a : α} (h : m.run = .ret a) :
    (m >>= f).steps = m.steps + (f a).steps := by
  show (match m.run with | .ret a => (⟨(f a).run, m.steps + (f a).steps⟩ : Work β) | .panic => ⟨.panic, m.steps⟩).steps = _
  rw [h]

@[simp] theorem tick_bind_run {β : Type} (n : Nat) (f : Unit → Work β) : (tick n >>= f).run = (f ()).run := by
  rw [run_bind]; rfl

@[simp] theorem tick_bind_steps {β : Type} (n : Nat) (f : Unit → Work β) : (tick n >>= f).steps = n + (f ()).steps :=
  steps_bind rfl

/-- What a sequence that returns has done. -/
theorem bind_inv {α β : Type} {m : Work α} {f : α → Work β} {b : β} (h : (m >>= f).run = .ret b) :
    ∃ a, m.run = .ret a ∧ (f a).run = .ret b ∧ (m >>= f).steps = m.steps + (f a).steps := by
  rw [run_bind] at h
  cases hm : m.run with
  | panic => rw [hm] at h; cases h
  | ret a =>
    rw [hm] at h
    exact ⟨a, rfl, h, steps_bind hm⟩

theorem takeRun_run (p : Char → Bool) (s : Str) : (takeRun p s).run = .ret (s.takeWhile p) := by
  induction s with
  | nil => rfl
  | cons c s ih =>
    simp only [takeRun, tick_bind_run]
    by_cases h : p c
    · rw [if_pos h, run_bind, ih, List.takeWhile_cons_of_pos h]; rfl
    · rw [if_neg h, List.takeWhile_cons_of_neg h]; rfl

theorem takeRun_steps (p : Char → Bool) (s : Str) : (takeRun p s).steps ≤ (s.takeWhile p).length + 1 := by
  induction s with
  | nil => exact Nat.zero_le _
  | cons c s ih =>
    simp only [takeRun, tick_bind_steps]
    by_cases h : p c
    · rw [if_pos h, steps_bind (takeRun_run p s), List.takeWhile_cons_of_pos h]
      simp; omega
    · rw [if_neg h]; simp

theorem matchRun_run (p : Char → Bool) (s : Str) : (matchRun p s).run = .ret (C8S.matchRun p s) := by
  rw [matchRun, run_bind, takeRun_run, C8S.matchRun]
  show (match s.takeWhile p with | [] => _ | _ => _ : Work (Option Nat)).run = _
  cases s.takeWhile p <;> rfl

theorem takeWhile_bytes (p : Char → Bool) (s : Str) : byteLen (s.takeWhile p) ≤ byteLen s := by
  have := congrArg byteLen (run_split p s)
  rw [byteLen_append] at this
  omega

/-- The steps of a pattern are bounded by what it matches, or by what there is. -/
structure Reads (w : Work (Option Nat)) (result : Option Nat) (text : Str) : Prop where
  run : w.run = .ret result
  some : ∀ n, result = .some n → w.steps ≤ n + 1 ∧ n ≤ byteLen text
  none : result = .none → w.steps ≤ byteLen text + 1

theorem matchRun_reads (p : Char → Bool) (s : Str) : Reads (matchRun p s) (C8S.matchRun p s) s := by
  have hs : (matchRun p s).steps ≤ (s.takeWhile p).length + 1 := by
    rw [matchRun, steps_bind (takeRun_run p s)]
    have h1 := takeRun_steps p s
    have h2 : (match s.takeWhile p with | [] => (pure none : Work (Option Nat)) | m => pure (some (byteLen m))).steps = 0 := by
      cases s.takeWhile p <;> rfl
    show _ + (match s.takeWhile p with | [] => (pure none : Work (Option Nat)) | m => pure (some (byteLen m))).steps ≤ _
    rw [h2]
    exact h1
  have hl := length_le_byteLen (s.takeWhile p)
  have hb := takeWhile_bytes p s
  refine ⟨matchRun_run p s, ?_, ?_⟩
  · intro n hn
    have : n = byteLen (s.takeWhile p) := by
      unfold C8S.matchRun at hn
      cases h : s.takeWhile p with
      | nil => rw [h] at hn; cases hn
      | cons c r => rw [h] at hn; cases hn; rfl
    omega
  · intro _
    omega

theorem reStringTail_run (n : Nat) : ∀ r : Str, r.length ≤ n → (reStringTail r).run = .ret (C8S.reStringTail r) := by
  induction n with
  | zero =>
    intro r hr
    cases r with
    | nil => rfl
    | cons c r => simp at hr
  | succ n ih =>
    intro r hr
    cases r with
    | nil => rfl
    | cons c r =>
      rw [reStringTail.eq_def, C8S.reStringTail.eq_def]
      simp only [tick_bind_run]
      by_cases h1 : c = '"'
      · rw [if_pos h1, if_pos h1]; rfl
      · rw [if_neg h1, if_neg h1]
        by_cases h2 : c = '\\'
        · rw [if_pos h2, if_pos h2]
          cases r with
          | nil => rfl
          | cons d r =>
            simp only [tick_bind_run]
            by_cases h3 : d = '\n'
            · rw [if_pos h3, if_pos h3]; rfl
            · rw [if_neg h3, if_neg h3, run_bind, ih r (by simp at hr; omega)]
              rfl
        · rw [if_neg h2, if_neg h2, run_bind, ih r (by simp at hr; omega)]
          rfl

theorem utf8_pos (c : Char) : 1 ≤ c.utf8Size := Char.utf8Size_pos c

theorem reStringTail_steps (n : Nat) : ∀ r : Str, r.length ≤ n →
    (∀ k, C8S.reStringTail r = some k → (reStringTail r).steps ≤ k ∧ k ≤ byteLen r) ∧
    (C8S.reStringTail r = none → (reStringTail r).steps ≤ byteLen r) := by
  induction n with
  | zero =>
    intro r hr
    cases r with
    | nil => exact ⟨(by intro k h; cases h), fun _ => Nat.zero_le _⟩
    | cons c r => simp at hr
  | succ n ih =>
    intro r hr
    cases r with
    | nil => exact ⟨(by intro k h; cases h), fun _ => Nat.zero_le _⟩
    | cons c r =>
      have hc := utf8_pos c
      rw [reStringTail.eq_def, C8S.reStringTail.eq_def]
      simp only [tick_bind_steps, byteLen_cons]
      by_cases h1 : c = '"'
      · rw [if_pos h1, if_pos h1]
        refine ⟨?_, by intro h; cases h⟩
        intro k hk
        cases hk
        simp; omega
      · rw [if_neg h1, if_neg h1]
        by_cases h2 : c = '\\'
        · rw [if_pos h2, if_pos h2]
          cases r with
          | nil => exact ⟨(by intro k h; cases h), fun _ => by simp; omega⟩
          | cons d r =>
            have hd := utf8_pos d
            simp only [tick_bind_steps, byteLen_cons]
            by_cases h3 : d = '\n'
            · rw [if_pos h3, if_pos h3]
              exact ⟨(by intro k h; cases h), fun _ => by simp; omega⟩
            · rw [if_neg h3, if_neg h3, steps_bind (reStringTail_run _ r (Nat.le_refl _))]
              obtain ⟨i1, i2⟩ := ih r (by simp at hr; omega)
              refine ⟨?_, ?_⟩
              · intro k hk
                cases hr' : C8S.reStringTail r with
                | none => rw [hr'] at hk; cases hk
                | some m =>
                  rw [hr'] at hk
                  cases hk
                  have := i1 m hr'
                  simp; omega
              · intro hk
                cases hr' : C8S.reStringTail r with
                | none =>
                  have := i2 hr'
                  simp; omega
                | some m => rw [hr'] at hk; cases hk
        · rw [if_neg h2, if_neg h2, steps_bind (reStringTail_run _ r (Nat.le_refl _))]
          obtain ⟨i1, i2⟩ := ih r (by simp at hr; omega)
          refine ⟨?_, ?_⟩
          · intro k hk
            cases hr' : C8S.reStringTail r with
            | none => rw [hr'] at hk; cases hk
            | some m =>
              rw [hr'] at hk
              cases hk
              have := i1 m hr'
              simp; omega
          · intro hk
            cases hr' : C8S.reStringTail r with
            | none =>
              have := i2 hr'
              simp; omega
            | some m => rw [hr'] at hk; cases hk

/-- A pattern of one character and of the rest. -/
theorem reads_cons {w : Work (Option Nat)} {result : Option Nat} {c : Char} {r : Str} (h : Reads w result r) :
    Reads (tick 1 >>= fun _ => w >>= fun n => pure (n.map (· + 1))) (result.map (· + 1)) (c :: r) := by
  have hc := utf8_pos c
  refine ⟨by rw [tick_bind_run, run_bind, h.run]; rfl, ?_, ?_⟩
  · intro n hn
    cases result with
    | none => cases hn
    | some m =>
      cases hn
      have := h.some m rfl
      rw [tick_bind_steps, steps_bind h.run, byteLen_cons]
      simp; omega
  · intro hn
    cases result with
    | some m => cases hn
    | none =>
      have := h.none rfl
      rw [tick_bind_steps, steps_bind h.run, byteLen_cons]
      simp; omega

theorem reads_none (w : Work (Option Nat)) (s : Str) (h : w.run = .ret .none) (hs : w.steps ≤ 1) : Reads w .none s :=
  ⟨h, (by intro n hn; cases hn), fun _ => by omega⟩

theorem reString_reads (s : Str) : Reads (reString s) (C8S.reString s) s := by
  cases s with
  | nil => exact reads_none _ _ rfl (Nat.le_refl 1)
  | cons c r =>
    by_cases hc : c = '"'
    · subst hc
      refine reads_cons ⟨reStringTail_run _ r (Nat.le_refl _), ?_, ?_⟩
      · intro n hn
        have := (reStringTail_steps _ r (Nat.le_refl _)).1 n hn
        omega
      · intro hn
        have := (reStringTail_steps _ r (Nat.le_refl _)).2 hn
        omega
    · have h1 : C8S.reString (c :: r) = none := by
        unfold C8S.reString
        split
        · rename_i h; exact absurd (List.cons.inj h).1 hc
        · rfl
      have h2 : reString (c :: r) = (tick 1 >>= fun _ => pure none) := by
        unfold reString
        split
        · rename_i h; exact absurd (List.cons.inj h).1 hc
        · rfl
      rw [h1, h2]
      exact reads_none _ _ rfl (Nat.le_refl 1)

theorem reHex_reads (s : Str) : Reads (reHex s) (C8S.reHex s) s := by
  cases s with
  | nil => exact reads_none _ _ rfl (Nat.zero_le 1)
  | cons c r =>
    unfold reHex C8S.reHex
    simp only []
    by_cases h : c = '$' ∨ c = '#'
    · simp only [if_pos h]
      refine reads_cons ?_
      have h1 := matchRun_reads isHex (r.take 3)
      have h2 : byteLen (r.take 3) ≤ byteLen r := by
        have := congrArg byteLen (List.take_append_drop 3 r)
        rw [byteLen_append] at this
        omega
      exact ⟨h1.run, fun n hn => ⟨(h1.some n hn).1, Nat.le_trans (h1.some n hn).2 h2⟩, fun hn => by have := h1.none hn; omega⟩
    · simp only [if_neg h]
      exact reads_none _ _ (by rw [tick_bind_run]; rfl) (by rw [tick_bind_steps]; exact Nat.le_refl 1)

theorem reBin_reads (s : Str) : Reads (reBin s) (C8S.reBin s) s := by
  cases s with
  | nil => exact reads_none _ _ rfl (Nat.zero_le 1)
  | cons c r =>
    unfold reBin C8S.reBin
    simp only []
    by_cases h : c = '%'
    · simp only [if_pos h]
      exact reads_cons (matchRun_reads isBin r)
    · simp only [if_neg h]
      exact reads_none _ _ (by rw [tick_bind_run]; rfl) (by rw [tick_bind_steps]; exact Nat.le_refl 1)

theorem reIdent_reads (s : Str) : Reads (reIdent s) (C8S.reIdent s) s := by
  cases s with
  | nil => exact reads_none _ _ rfl (Nat.zero_le 1)
  | cons c r =>
    unfold reIdent C8S.reIdent
    simp only []
    by_cases h : isIdentStart c = true
    · simp only [if_pos h]
      have hc := utf8_pos c
      refine ⟨by rw [tick_bind_run, run_bind, takeRun_run]; rfl, ?_, by intro hn; cases hn⟩
      intro n hn
      cases hn
      have h1 := takeRun_steps isIdentChar r
      have h2 := length_le_byteLen (r.takeWhile isIdentChar)
      have h3 := takeWhile_bytes isIdentChar r
      rw [tick_bind_steps, steps_bind (takeRun_run _ _), byteLen_cons]
      simp; omega
    · simp only [if_neg h]
      exact reads_none _ _ (by rw [tick_bind_run]; rfl) (by rw [tick_bind_steps]; exact Nat.le_refl 1)

theorem radixDigits_spec (bits radix : Nat) (s : Str) (acc : Nat) :
    (radixDigits bits radix s acc).run = .ret (C8S.radixDigits bits radix s acc) ∧
    (radixDigits bits radix s acc).steps ≤ s.length := by
  induction s generalizing acc with
  | nil => exact ⟨rfl, Nat.le_refl 0⟩
  | cons c s ih =>
    rw [radixDigits, C8S.radixDigits, tick_bind_run, tick_bind_steps]
    cases toDigit radix c with
    | none => exact ⟨rfl, by simp⟩
    | some d =>
      simp only []
      by_cases h : acc * radix + d < 2 ^ bits
      · rw [if_pos h, if_pos h]
        have := ih (acc * radix + d)
        exact ⟨this.1, by simp; omega⟩
      · rw [if_neg h, if_neg h]
        exact ⟨rfl, by simp⟩

theorem fromStrRadix_spec (bits radix : Nat) (s : Str) :
    (fromStrRadix bits radix s).run = .ret (C8S.fromStrRadix bits radix s) ∧
    (fromStrRadix bits radix s).steps ≤ s.length + 1 := by
  unfold fromStrRadix C8S.fromStrRadix
  rw [tick_bind_run, tick_bind_steps]
  cases s with
  | nil => exact ⟨rfl, by simp⟩
  | cons c r =>
    by_cases hc : c = '+'
    · subst hc
      cases r with
      | nil => exact ⟨rfl, by simp⟩
      | cons d r =>
        have := radixDigits_spec bits radix (d :: r) 0
        refine ⟨this.1, ?_⟩
        have h2 := this.2
        simp only [List.length_cons] at h2 ⊢
        omega
    · have h1 : ∀ r', c :: r ≠ '+' :: r' := fun r' h => hc (List.cons.inj h).1
      have := radixDigits_spec bits radix (c :: r) 0
      have h2 := this.2
      split
      · rename_i h; cases h
      · rename_i h; exact absurd h (h1 _)
      · rename_i h; exact absurd h (h1 _)
      · exact ⟨by simp only [this.1], by omega⟩

theorem binLoop_spec [Target] (s : Str) (acc : Nat) :
    (binLoop s acc).run = .ret (C8S.binLoop s acc) ∧ (binLoop s acc).steps ≤ s.length := by
  induction s generalizing acc with
  | nil => exact ⟨rfl, Nat.le_refl 0⟩
  | cons c s ih =>
    rw [binLoop, C8S.binLoop, tick_bind_run, tick_bind_steps]
    have h0 := ih ((acc <<< 1) % 2 ^ usizeBits ||| 0)
    have h1 := ih ((acc <<< 1) % 2 ^ usizeBits ||| 1)
    by_cases hc : c = '.'
    · rw [if_pos hc, if_pos hc]
      exact ⟨h0.1, by simp only [List.length_cons]; omega⟩
    · rw [if_neg hc, if_neg hc]
      by_cases hc : c = '0'
      · rw [if_pos hc, if_pos hc]
        exact ⟨h0.1, by simp only [List.length_cons]; omega⟩
      · rw [if_neg hc, if_neg hc]
        by_cases hc : c = '1'
        · rw [if_pos hc, if_pos hc]
          exact ⟨h1.1, by simp only [List.length_cons]; omega⟩
        · rw [if_neg hc, if_neg hc]
          exact ⟨rfl, by simp⟩

theorem parse12_spec [Target] (s : Str) : (parse12BitBinStr s).run = .ret (C8S.parse12BitBinStr s) ∧
    (parse12BitBinStr s).steps ≤ s.length := by
  obtain ⟨h1, h2⟩ := binLoop_spec s 0
  unfold parse12BitBinStr C8S.parse12BitBinStr
  rw [run_bind, steps_bind h1, h1]
  simp only [Run.ret_bind]
  cases C8S.binLoop s 0 with
  | error e => exact ⟨rfl, by simpa using h2⟩
  | ok acc =>
    simp only []
    by_cases h : acc ≤ 0xFFF
    · simp only [if_pos h]; exact ⟨rfl, by simpa using h2⟩
    · simp only [if_neg h]; exact ⟨rfl, by simpa using h2⟩

theorem advanceLoop_spec (s : Str) (st : Nat × Nat × Nat) :
    (advanceLoop s st).run = .ret (Scanner.advanceLoop s st) ∧ (advanceLoop s st).steps = s.length := by
  induction s generalizing st with
  | nil => exact ⟨rfl, rfl⟩
  | cons c s ih =>
    obtain ⟨a, b, d⟩ := st
    rw [advanceLoop, Scanner.advanceLoop, tick_bind_run, tick_bind_steps]
    simp only []
    by_cases h : c = '\n'
    · rw [if_pos h, if_pos h]
      exact ⟨(ih _).1, by rw [(ih _).2]; simp; omega⟩
    · rw [if_neg h, if_neg h]
      exact ⟨(ih _).1, by rw [(ih _).2]; simp; omega⟩

theorem countBytes_spec (s : Str) (acc : Nat) :
    (countBytes s acc).run = .ret (s.foldl (fun acc x => acc + x.utf8Size) acc) ∧ (countBytes s acc).steps = s.length := by
  induction s generalizing acc with
  | nil => exact ⟨rfl, rfl⟩
  | cons c s ih =>
    rw [countBytes, tick_bind_run, tick_bind_steps]
    exact ⟨(ih _).1, by rw [(ih _).2]; simp; omega⟩

theorem commentBytes_spec (s : Str) (n : Nat) :
    (commentBytes s n).run = .ret (Scanner.commentBytes s n) ∧ n + (commentBytes s n).steps ≤ Scanner.commentBytes s n + 1 := by
  induction s generalizing n with
  | nil => exact ⟨rfl, Nat.le_succ n⟩
  | cons c s ih =>
    rw [commentBytes, Scanner.commentBytes, tick_bind_run, tick_bind_steps]
    by_cases h : c = '\n'
    · rw [if_pos h, if_pos h]
      exact ⟨rfl, by simp⟩
    · rw [if_neg h, if_neg h]
      have := (ih (n + c.utf8Size)).2
      have hc := utf8_pos c
      exact ⟨(ih _).1, by omega⟩

/-! ### Slices -/

theorem sliceTo_bytes (t : Str) (n : Nat) (r : Str) (h : sliceTo t n = .ret r) : byteLen r = n := by
  induction t generalizing n r with
  | nil =>
    cases n with
    | zero => cases h; rfl
    | succ n => cases h
  | cons c t ih =>
    cases n with
    | zero => cases h; rfl
    | succ n =>
      rw [sliceTo] at h
      by_cases hc : c.utf8Size ≤ n + 1
      · rw [if_pos hc] at h
        cases ht : sliceTo t (n + 1 - c.utf8Size) with
        | panic => rw [ht] at h; cases h
        | ret u =>
          rw [ht] at h
          cases h
          rw [byteLen_cons, ih _ _ ht]
          omega
      · rw [if_neg hc] at h
        cases h

theorem sliceFrom_bytes (s : Str) (n : Nat) (t : Str) (h : sliceFrom s n = .ret t) : n + byteLen t = byteLen s := by
  induction s generalizing n with
  | nil =>
    cases n with
    | zero => cases h; rfl
    | succ n => cases h
  | cons c s ih =>
    cases n with
    | zero => cases h; exact Nat.zero_add _
    | succ n =>
      rw [sliceFrom] at h
      by_cases hc : c.utf8Size ≤ n + 1
      · rw [if_pos hc] at h
        have := ih _ h
        rw [byteLen_cons]
        omega
      · rw [if_neg hc] at h
        cases h

theorem slice_bytes (s : Str) (a b : Nat) (r : Str) (h : slice s a b = .ret r) : byteLen r = b - a := by
  unfold slice at h
  by_cases hb : b < a
  · rw [if_pos hb] at h; cases h
  · rw [if_neg hb] at h
    cases ht : sliceFrom s a with
    | panic => rw [ht] at h; cases h
    | ret t =>
      rw [ht] at h
      exact sliceTo_bytes _ _ _ h

/-! ### Scanner methods -/

theorem advanceBy_run (s : Scanner) (n : Nat) : (advanceBy s n).run = s.advanceBy n := by
  unfold advanceBy Scanner.advanceBy
  simp only [run_bind, run_step, run_free, (countBytes_spec _ _).1, (advanceLoop_spec _ _).1, Run.ret_bind, run_pure, Run.pure_eq]

theorem charAt_run (s : Scanner) (n : Nat) : (charAt s n).run = s.charAt n := by
  unfold charAt Scanner.charAt
  simp only [run_bind, run_step]

theorem consumeChar_run (s : Scanner) : (consumeChar s).run = s.consumeChar := by
  unfold consumeChar Scanner.consumeChar
  simp only [run_bind, charAt_run, advanceBy_run, run_pure, Run.pure_eq]

theorem consumeWhitespace_run (s : Scanner) : (consumeWhitespace s).run = s.consumeWhitespace := by
  unfold consumeWhitespace Scanner.consumeWhitespace reWhitespace
  simp only [run_bind, run_step, matchRun_run, Run.ret_bind]
  congr 1
  funext t
  cases C8S.matchRun isBlank t with
  | none => rfl
  | some n => simp only [run_bind, advanceBy_run, run_pure, Run.pure_eq]

theorem consumeStringLiteral_run (s : Scanner) : (consumeStringLiteral s).run = s.consumeStringLiteral := by
  unfold consumeStringLiteral Scanner.consumeStringLiteral
  simp only [run_bind, run_step, (reString_reads _).run, Run.ret_bind]
  congr 1
  funext t
  cases C8S.reString t with
  | none => rfl
  | some n => simp only [run_bind, run_step, advanceBy_run, run_pure, Run.pure_eq]

theorem consumeHexLiteral_run [Target] (s : Scanner) : (consumeHexLiteral s).run = s.consumeHexLiteral := by
  unfold consumeHexLiteral Scanner.consumeHexLiteral
  simp only [run_bind, run_step, (reHex_reads _).run, Run.ret_bind]
  congr 1
  funext t
  cases C8S.reHex t with
  | none => rfl
  | some n =>
    simp only [run_bind, run_step, run_free, advanceBy_run, (fromStrRadix_spec _ _ _).1, Run.ret_bind, run_pure, Run.pure_eq]

theorem consumeBinLiteral_run [Target] (s : Scanner) : (consumeBinLiteral s).run = s.consumeBinLiteral := by
  unfold consumeBinLiteral Scanner.consumeBinLiteral
  simp only [run_bind, run_step, (reBin_reads _).run, Run.ret_bind]
  congr 1
  funext t
  cases C8S.reBin t with
  | none => rfl
  | some n =>
    simp only [run_bind, run_step, advanceBy_run, (parse12_spec _).1, Run.ret_bind]
    congr 1
    funext digits
    congr 1
    funext x
    cases C8S.parse12BitBinStr digits <;> rfl

theorem consumeDecimalLiteral_run [Target] (s : Scanner) : (consumeDecimalLiteral s).run = s.consumeDecimalLiteral := by
  unfold consumeDecimalLiteral Scanner.consumeDecimalLiteral reDec
  simp only [run_bind, run_step, matchRun_run, Run.ret_bind]
  congr 1
  funext t
  cases C8S.matchRun isDec t with
  | none => rfl
  | some n =>
    simp only [run_bind, run_step, (fromStrRadix_spec _ _ _).1, Run.ret_bind]
    congr 1
    funext digits
    cases C8S.fromStrRadix usizeBits 10 digits with
    | none => simp only [run_bind, advanceBy_run, run_pure, Run.pure_eq]
    | some v =>
      simp only []
      by_cases h : v ≤ 4095
      · simp only [if_pos h, run_bind, advanceBy_run, run_pure, Run.pure_eq]
      · simp only [if_neg h, run_bind, advanceBy_run, run_pure, Run.pure_eq]

theorem consumeIdentifier_run (s : Scanner) : (consumeIdentifier s).run = s.consumeIdentifier := by
  unfold consumeIdentifier Scanner.consumeIdentifier
  simp only [run_bind, run_step, (reIdent_reads _).run, Run.ret_bind]
  congr 1
  funext t
  cases C8S.reIdent t with
  | none => rfl
  | some n => simp only [run_bind, run_step, advanceBy_run, run_pure, Run.pure_eq]

theorem consumeIndirect_run (s : Scanner) : (consumeIndexRegisterIndirect s).run = s.consumeIndexRegisterIndirect := by
  unfold consumeIndexRegisterIndirect Scanner.consumeIndexRegisterIndirect
  simp only [run_bind, run_step, run_tick, Run.ret_bind]
  congr 1
  funext t
  by_cases h : ("[i]".toList.isPrefixOf t || "[I]".toList.isPrefixOf t) = true
  · simp only [if_pos h, run_bind, run_step, advanceBy_run, run_pure, Run.pure_eq]
  · simp only [if_neg h]
    rfl

theorem consumeComment_run (s : Scanner) : (consumeSingleLineComment s).run = s.consumeSingleLineComment := by
  unfold consumeSingleLineComment Scanner.consumeSingleLineComment
  simp only [run_bind, run_step, run_free, charAt_run, (commentBytes_spec _ _).1, Run.ret_bind, advanceBy_run, run_pure, Run.pure_eq]

theorem dispatch_run [Target] (s : Scanner) (c : Char) : (dispatch s c).run = s.dispatch c := by
  unfold dispatch Scanner.dispatch
  simp only [apply_ite Work.run, consumeComment_run, consumeStringLiteral_run, consumeHexLiteral_run, consumeBinLiteral_run,
    consumeIndirect_run, consumeDecimalLiteral_run, consumeIdentifier_run]
  simp only [consumeDirectiveMarker, consumeLabelMarker, consumeComma, consumeNewline, fail, Scanner.consumeDirectiveMarker,
    Scanner.consumeLabelMarker, Scanner.consumeComma, Scanner.consumeNewline, run_bind, run_free, consumeChar_run, run_pure,
    Run.pure_eq]

theorem nextToken_run [Target] (s : Scanner) : (nextToken s).run = s.nextToken := by
  unfold nextToken Scanner.nextToken
  simp only [run_bind, consumeWhitespace_run]
  congr 1
  funext s
  by_cases h : s.isAtEnd = true
  · simp only [if_pos h, run_pure, Run.pure_eq]
  · simp only [if_neg h, run_bind, charAt_run, dispatch_run, run_pure, Run.pure_eq]

theorem drain_run [Target] (n : Nat) (s : Scanner) : (drain n s).run = C8S.drain n s := by
  induction n generalizing s with
  | zero => rfl
  | succ n ih =>
    unfold drain C8S.drain
    simp only [run_bind, nextToken_run]
    congr 1
    funext x
    obtain ⟨t, s'⟩ := x
    cases t with
    | none => rfl
    | some t => simp only [run_bind, ih, run_pure, Run.pure_eq]

/-! ### The steps of the scanner -/

theorem advance_steps {s s' : Scanner} {n : Nat} {l : Loc} (h : (advanceBy s n).run = .ret (l, s')) :
    s'.position = s.position + n ∧ s'.input = s.input ∧ (advanceBy s n).steps ≤ 1 + 2 * n := by
  unfold advanceBy at h ⊢
  obtain ⟨range, h1, h2, e1⟩ := bind_inv h
  obtain ⟨total, h3, h4, e2⟩ := bind_inv h2
  obtain ⟨u, h5, h6, e3⟩ := bind_inv h4
  obtain ⟨⟨a, b, c⟩, h7, h8, e4⟩ := bind_inv h6
  obtain ⟨loc, h9, h10, e5⟩ := bind_inv h8
  rw [e1, e2, e3, e4, e5]
  have hb := slice_bytes _ _ _ _ h1
  have hl := length_le_byteLen range
  rw [(countBytes_spec _ _).2, (advanceLoop_spec _ _).2]
  cases h10
  simp
  omega

theorem charAt_steps {s : Scanner} {n : Nat} {c : Char} (h : (charAt s n).run = .ret c) : (charAt s n).steps = 2 := by
  unfold charAt at h ⊢
  obtain ⟨t, h1, h2, e⟩ := bind_inv h
  rw [e]
  rfl

/-- The steps a method takes are paid for by the bytes it moves over. -/
def Cheap (s : Scanner) (w : Work (Token × Scanner)) : Prop :=
  ∀ t s', w.run = .ret (t, s') → w.steps + 5 * s.position ≤ 5 * s'.position + 12

theorem fail_cheap {s s' : Scanner} {t : Token} {e : ScanError} (h : (fail s e).run = .ret (t, s')) :
    s'.position = byteLen s.input := by
  unfold fail Scanner.fail at h
  rw [run_free] at h
  cases hl : Loc.new s.fileName s.currentLine s.currentLineOffset 1 with
  | panic => rw [hl] at h; cases h
  | ret l => rw [hl] at h; cases h; rfl

theorem consumeChar_cheap {s s' : Scanner} {c : Char} {l : Loc} (h : (consumeChar s).run = .ret (c, l, s')) :
    (consumeChar s).steps + 5 * s.position ≤ 5 * s'.position + 3 := by
  unfold consumeChar at h ⊢
  obtain ⟨c, h1, h2, e1⟩ := bind_inv h
  obtain ⟨⟨l, s1⟩, h3, h4, e2⟩ := bind_inv h2
  obtain ⟨p, _, st⟩ := advance_steps h3
  rw [e1, e2, charAt_steps h1]
  cases h4
  simp
  omega

theorem single_cheap {s : Scanner} {f : Loc → Token} {c : Char} :
    Cheap s (consumeChar s >>= fun x => free (rustAssert (x.1 == c)) >>= fun _ => pure (f x.2.1, x.2.2)) := by
  intro t s' h
  obtain ⟨⟨v, l, s1⟩, h1, h2, e1⟩ := bind_inv h
  obtain ⟨u, h3, h4, e2⟩ := bind_inv h2
  have := consumeChar_cheap h1
  rw [e1, e2]
  cases h4
  simp
  omega

theorem comment_cheap (s : Scanner) : Cheap s (consumeSingleLineComment s) := by
  intro t s' h
  unfold consumeSingleLineComment at h ⊢
  obtain ⟨c, h1, h2, e1⟩ := bind_inv h
  obtain ⟨u, h3, h4, e2⟩ := bind_inv h2
  obtain ⟨txt, h5, h6, e3⟩ := bind_inv h4
  obtain ⟨n, h7, h8, e4⟩ := bind_inv h6
  obtain ⟨body, h9, h10, e5⟩ := bind_inv h8
  obtain ⟨⟨l, s1⟩, h11, h12, e6⟩ := bind_inv h10
  obtain ⟨p, _, st⟩ := advance_steps h11
  obtain ⟨i1, i2⟩ := commentBytes_spec txt 0
  rw [i1] at h7
  cases h7
  rw [e1, e2, e3, e4, e5, e6, charAt_steps h1]
  cases h12
  simp
  omega

theorem string_cheap (s : Scanner) : Cheap s (consumeStringLiteral s) := by
  intro t s' h
  unfold consumeStringLiteral at h ⊢
  obtain ⟨txt, h1, h2, e1⟩ := bind_inv h
  obtain ⟨m, h3, h4, e2⟩ := bind_inv h2
  have hr := reString_reads txt
  rw [hr.run] at h3
  cases h3
  have hb := sliceFrom_bytes _ _ _ h1
  rw [e1, e2]
  cases hm : C8S.reString txt with
  | none =>
    rw [hm] at h4
    have h5 := fail_cheap h4
    have h6 := hr.none hm
    simp only [fail, steps_step, steps_free]
    omega
  | some n =>
    rw [hm] at h4
    have h6 := (hr.some n hm).1
    obtain ⟨body, h7, h8, e3⟩ := bind_inv h4
    obtain ⟨⟨l, s1⟩, h9, h10, e4⟩ := bind_inv h8
    obtain ⟨p, _, st⟩ := advance_steps h9
    simp only [e3, e4, steps_step]
    cases h10
    simp
    omega

theorem identifier_cheap (s : Scanner) : Cheap s (consumeIdentifier s) := by
  intro t s' h
  unfold consumeIdentifier at h ⊢
  obtain ⟨txt, h1, h2, e1⟩ := bind_inv h
  obtain ⟨m, h3, h4, e2⟩ := bind_inv h2
  have hr := reIdent_reads txt
  rw [hr.run] at h3
  cases h3
  have hb := sliceFrom_bytes _ _ _ h1
  rw [e1, e2]
  cases hm : C8S.reIdent txt with
  | none =>
    rw [hm] at h4
    have h5 := fail_cheap h4
    have h6 := hr.none hm
    simp only [fail, steps_step, steps_free]
    omega
  | some n =>
    rw [hm] at h4
    have h6 := (hr.some n hm).1
    obtain ⟨body, h7, h8, e3⟩ := bind_inv h4
    obtain ⟨⟨l, s1⟩, h9, h10, e4⟩ := bind_inv h8
    obtain ⟨p, _, st⟩ := advance_steps h9
    simp only [e3, e4, steps_step]
    cases h10
    simp
    omega

theorem indirect_cheap (s : Scanner) : Cheap s (consumeIndexRegisterIndirect s) := by
  intro t s' h
  unfold consumeIndexRegisterIndirect at h ⊢
  obtain ⟨txt, h1, h2, e1⟩ := bind_inv h
  rw [e1, tick_bind_steps]
  rw [tick_bind_run] at h2
  have hb := sliceFrom_bytes _ _ _ h1
  by_cases hp : ("[i]".toList.isPrefixOf txt || "[I]".toList.isPrefixOf txt) = true
  · simp only [if_pos hp] at h2 ⊢
    obtain ⟨body, h7, h8, e3⟩ := bind_inv h2
    obtain ⟨⟨l, s1⟩, h9, h10, e4⟩ := bind_inv h8
    obtain ⟨p, _, st⟩ := advance_steps h9
    simp only [e3, e4, steps_step]
    have h3 : byteLen "[i]".toList = 3 := rfl
    rw [h3] at p st
    cases h10
    simp only [h3, steps_pure]
    omega
  · simp only [if_neg hp] at h2 ⊢
    have h5 := fail_cheap h2
    simp only [fail, steps_step, steps_free]
    omega

theorem hex_cheap [Target] (s : Scanner) : Cheap s (consumeHexLiteral s) := by
  intro t s' h
  unfold consumeHexLiteral at h ⊢
  obtain ⟨txt, h1, h2, e1⟩ := bind_inv h
  obtain ⟨m, h3, h4, e2⟩ := bind_inv h2
  have hr := reHex_reads txt
  rw [hr.run] at h3
  cases h3
  have hb := sliceFrom_bytes _ _ _ h1
  rw [e1, e2]
  cases hm : C8S.reHex txt with
  | none =>
    rw [hm] at h4
    have h5 := fail_cheap h4
    have h6 := hr.none hm
    simp only [fail, steps_step, steps_free]
    omega
  | some n =>
    rw [hm] at h4
    have h6 := (hr.some n hm).1
    obtain ⟨digits, h7, h8, e3⟩ := bind_inv h4
    obtain ⟨⟨l, s1⟩, h9, h10, e4⟩ := bind_inv h8
    obtain ⟨v, h11, h12, e5⟩ := bind_inv h10
    obtain ⟨value, h13, h14, e6⟩ := bind_inv h12
    obtain ⟨p, _, st⟩ := advance_steps h9
    have hd := slice_bytes _ _ _ _ h7
    have hl := length_le_byteLen digits
    have hf := (fromStrRadix_spec usizeBits 16 digits).2
    simp only [e3, e4, e5, e6, steps_step, steps_free]
    cases h14
    simp only [steps_pure]
    omega

theorem bin_cheap [Target] (s : Scanner) : Cheap s (consumeBinLiteral s) := by
  intro t s' h
  unfold consumeBinLiteral at h ⊢
  obtain ⟨txt, h1, h2, e1⟩ := bind_inv h
  obtain ⟨m, h3, h4, e2⟩ := bind_inv h2
  have hr := reBin_reads txt
  rw [hr.run] at h3
  cases h3
  have hb := sliceFrom_bytes _ _ _ h1
  rw [e1, e2]
  cases hm : C8S.reBin txt with
  | none =>
    rw [hm] at h4
    have h5 := fail_cheap h4
    have h6 := hr.none hm
    simp only [fail, steps_step, steps_free]
    omega
  | some n =>
    rw [hm] at h4
    have h6 := hr.some n hm
    obtain ⟨digits, h7, h8, e3⟩ := bind_inv h4
    obtain ⟨⟨l, s1⟩, h9, h10, e4⟩ := bind_inv h8
    obtain ⟨v, h11, h12, e5⟩ := bind_inv h10
    obtain ⟨p, _, st⟩ := advance_steps h9
    have hd := slice_bytes _ _ _ _ h7
    have hl := length_le_byteLen digits
    have hf := (parse12_spec digits).2
    simp only [e3, e4, e5, steps_step]
    cases v with
    | ok value =>
      cases h12
      simp only [steps_pure]
      omega
    | error e =>
      cases h12
      simp only [steps_pure]
      omega

theorem decimal_cheap [Target] (s : Scanner) : Cheap s (consumeDecimalLiteral s) := by
  intro t s' h
  unfold consumeDecimalLiteral at h ⊢
  obtain ⟨txt, h1, h2, e1⟩ := bind_inv h
  obtain ⟨m, h3, h4, e2⟩ := bind_inv h2
  have hr := matchRun_reads isDec txt
  rw [hr.run] at h3
  cases h3
  have hb := sliceFrom_bytes _ _ _ h1
  rw [e1, e2]
  cases hm : C8S.matchRun isDec txt with
  | none =>
    rw [hm] at h4
    have h5 := fail_cheap h4
    have h6 := hr.none hm
    simp only [fail, steps_step, steps_free]
    omega
  | some n =>
    rw [hm] at h4
    have h6 := hr.some n hm
    obtain ⟨digits, h7, h8, e3⟩ := bind_inv h4
    obtain ⟨v, h9, h10, e4⟩ := bind_inv h8
    have hd := slice_bytes _ _ _ _ h7
    have hl := length_le_byteLen digits
    have hf := (fromStrRadix_spec usizeBits 10 digits).2
    simp only [e3, e4, steps_step]
    cases v with
    | none =>
      obtain ⟨⟨l, s1⟩, h11, h12, e5⟩ := bind_inv h10
      obtain ⟨p, _, st⟩ := advance_steps h11
      simp only [e5]
      cases h12
      simp only [steps_pure]
      omega
    | some v =>
      simp only [] at h10 ⊢
      by_cases hv : v ≤ 4095
      · simp only [if_pos hv] at h10 ⊢
        obtain ⟨⟨l, s1⟩, h11, h12, e5⟩ := bind_inv h10
        obtain ⟨p, _, st⟩ := advance_steps h11
        simp only [e5]
        cases h12
        simp only [steps_pure]
        omega
      · simp only [if_neg hv] at h10 ⊢
        obtain ⟨⟨l, s1⟩, h11, h12, e5⟩ := bind_inv h10
        obtain ⟨p, _, st⟩ := advance_steps h11
        simp only [e5]
        cases h12
        simp only [steps_pure]
        omega

theorem cheap_ite {s : Scanner} {p : Prop} [Decidable p] {a b : Work (Token × Scanner)} (h1 : Cheap s a) (h2 : Cheap s b) :
    Cheap s (if p then a else b) := by
  by_cases h : p
  · rw [if_pos h]; exact h1
  · rw [if_neg h]; exact h2

theorem dispatch_cheap [Target] (s : Scanner) (c : Char) (hs : s.position ≤ byteLen s.input) : Cheap s (dispatch s c) := by
  unfold dispatch
  refine cheap_ite (comment_cheap s) ?_
  refine cheap_ite single_cheap ?_
  refine cheap_ite single_cheap ?_
  refine cheap_ite single_cheap ?_
  refine cheap_ite (string_cheap s) ?_
  refine cheap_ite (hex_cheap s) ?_
  refine cheap_ite (hex_cheap s) ?_
  refine cheap_ite (bin_cheap s) ?_
  refine cheap_ite (indirect_cheap s) ?_
  refine cheap_ite (decimal_cheap s) ?_
  refine cheap_ite (identifier_cheap s) ?_
  refine cheap_ite single_cheap ?_
  intro t s' h
  have := fail_cheap h
  simp only [fail, steps_free]
  omega

theorem whitespace_steps {s s' : Scanner} (h : (consumeWhitespace s).run = .ret s') :
    (consumeWhitespace s).steps + 5 * s.position ≤ 5 * s'.position + 3 ∧ s.position ≤ s'.position ∧ s'.input = s.input := by
  unfold consumeWhitespace at h ⊢
  obtain ⟨txt, h1, h2, e1⟩ := bind_inv h
  obtain ⟨m, h3, h4, e2⟩ := bind_inv h2
  have hr := matchRun_reads isBlank txt
  rw [hr.run] at h3
  cases h3
  rw [e1, e2]
  have hs : (matchRun isBlank txt).steps ≤ (txt.takeWhile isBlank).length + 1 := by
    rw [matchRun, steps_bind (takeRun_run isBlank txt)]
    have h2 : (match txt.takeWhile isBlank with | [] => (pure none : Work (Option Nat)) | m => pure (some (byteLen m))).steps = 0 := by
      cases txt.takeWhile isBlank <;> rfl
    show _ + (match txt.takeWhile isBlank with | [] => (pure none : Work (Option Nat)) | m => pure (some (byteLen m))).steps ≤ _
    rw [h2]
    exact takeRun_steps isBlank txt
  cases hm : C8S.matchRun isBlank txt with
  | none =>
    rw [hm] at h4
    have h5 : txt.takeWhile isBlank = [] := by
      unfold C8S.matchRun at hm
      cases hx : txt.takeWhile isBlank with
      | nil => rfl
      | cons c r => rw [hx] at hm; cases hm
    rw [h5] at hs
    cases h4
    simp at hs ⊢
    omega
  | some n =>
    rw [hm] at h4
    have h6 := hr.some n hm
    obtain ⟨⟨l, s1⟩, h9, h10, e4⟩ := bind_inv h4
    obtain ⟨p, i, st⟩ := advance_steps h9
    simp only [e4, steps_step]
    cases h10
    simp only [steps_pure]
    exact ⟨by omega, by omega, i⟩

theorem nextToken_steps [Target] {s s' : Scanner} {t : Option Token} (h : (nextToken s).run = .ret (t, s')) :
    (nextToken s).steps + 5 * s.position ≤ 5 * s'.position + 17 := by
  unfold nextToken at h ⊢
  obtain ⟨s1, h1, h2, e1⟩ := bind_inv h
  obtain ⟨w1, w2, w3⟩ := whitespace_steps h1
  rw [e1]
  by_cases he : s1.isAtEnd = true
  · simp only [if_pos he] at h2 ⊢
    cases h2
    simp only [steps_pure]
    omega
  · simp only [if_neg he] at h2 ⊢
    obtain ⟨c, h3, h4, e2⟩ := bind_inv h2
    obtain ⟨⟨t, s2⟩, h5, h6, e3⟩ := bind_inv h4
    have hp : s1.position ≤ byteLen s1.input := by
      unfold Scanner.isAtEnd at he
      simp at he
      omega
    have hd := dispatch_cheap s1 c hp t s2 h5
    rw [e2, e3, charAt_steps h3]
    cases h6
    simp only [steps_pure]
    omega

theorem drain_steps [Target] (n : Nat) {file text : Str} {s : Scanner} {ts : List Token} (hv : Visits file text s)
    (h : (drain n s).run = .ret ts) : (drain n s).steps + 5 * s.position ≤ 5 * (utf8 text).length + 17 * (ts.length + 1) := by
  induction n generalizing s ts with
  | zero => cases h
  | succ n ih =>
    unfold drain at h ⊢
    obtain ⟨⟨t, s'⟩, h1, h2, e1⟩ := bind_inv h
    have h3 := nextToken_steps h1
    rw [nextToken_run] at h1
    have hv' := Visits.next hv h1
    have hp := (C86_scanner file text s' hv').1
    rw [e1]
    cases t with
    | none =>
      cases h2
      simp only [steps_pure, List.length_nil]
      omega
    | some t =>
      obtain ⟨rest, h4, h5, e2⟩ := bind_inv h2
      have := ih hv' h4
      simp only [e2]
      cases h5
      simp only [steps_pure, List.length_cons]
      omega

end C8S.Work
