import Verif.Spec.System

/- Lemmas on reading and writing in pieces (C107). -/

namespace C8S

open Spec

/-! ### Reading -/

theorem readToEnd_ok (before : List U8) (answers : List ReadAnswer) (bytes : List U8) :
    readToEnd before answers = .ret (.ok bytes) ↔ ∃ rest, Delivers answers rest ∧ bytes = before ++ rest := by
  induction answers generalizing before with
  | nil =>
    refine ⟨fun h => (by cases h), ?_⟩
    rintro ⟨rest, h, _⟩
    cases h
  | cons a more ih =>
    cases a with
    | bytes b =>
      unfold readToEnd
      by_cases hb : b = []
      · subst hb
        simp only [if_true]
        constructor
        · rintro ⟨⟩
          exact ⟨[], .ended, by simp⟩
        · rintro ⟨rest, h, rfl⟩
          cases h with
          | ended => simp
          | piece hb _ => exact (hb rfl).elim
      · rw [if_neg hb, ih]
        constructor
        · rintro ⟨rest, h, rfl⟩
          exact ⟨b ++ rest, .piece hb h, by simp⟩
        · rintro ⟨rest, h, rfl⟩
          cases h with
          | ended => exact (hb rfl).elim
          | piece _ h => exact ⟨_, h, by simp⟩
    | interrupted =>
      unfold readToEnd
      rw [ih]
      constructor
      · rintro ⟨rest, h, rfl⟩
        exact ⟨rest, .again h, rfl⟩
      · rintro ⟨rest, h, rfl⟩
        cases h with
        | again h => exact ⟨rest, h, rfl⟩
    | failed reason =>
      unfold readToEnd
      refine ⟨fun h => (by cases h), ?_⟩
      rintro ⟨rest, h, _⟩
      cases h

theorem readToEnd_error (before : List U8) (answers : List ReadAnswer) (reason : Str) :
    readToEnd before answers = .ret (.error reason) ↔ Breaks answers reason := by
  induction answers generalizing before with
  | nil => exact ⟨fun h => (by cases h), fun h => (by cases h)⟩
  | cons a more ih =>
    cases a with
    | bytes b =>
      unfold readToEnd
      by_cases hb : b = []
      · subst hb
        simp only [if_true]
        refine ⟨fun h => (by cases h), fun h => ?_⟩
        cases h with
        | piece hb _ => exact (hb rfl).elim
      · rw [if_neg hb, ih]
        refine ⟨.piece hb, fun h => ?_⟩
        cases h with
        | piece _ h => exact h
    | interrupted =>
      unfold readToEnd
      rw [ih]
      refine ⟨.again, fun h => ?_⟩
      cases h with
      | again h => exact h
    | failed r =>
      unfold readToEnd
      constructor
      · rintro ⟨⟩
        exact .now
      · rintro ⟨⟩
        rfl

/-! ### Writing -/

theorem writeAll_ok (received buffered : List U8) (answers : List WriteAnswer) (buf : List U8) :
    (∃ w, writeAll received buffered answers buf = .ret (w, .ok ())) ↔ RoomFor answers buf.length := by
  induction answers generalizing received buf with
  | nil =>
    cases buf with
    | nil => exact ⟨fun _ => .enough, fun _ => ⟨_, rfl⟩⟩
    | cons b bs =>
      refine ⟨fun ⟨w, h⟩ => (by cases h), fun h => ?_⟩
      cases h
  | cons a more ih =>
    cases buf with
    | nil => exact ⟨fun _ => .enough, fun _ => ⟨_, by simp only [writeAll]; rfl⟩⟩
    | cons b bs =>
      cases a with
      | interrupted =>
        rw [writeAll, ih]
        refine ⟨.again, fun h => ?_⟩
        cases h with
        | again h => exact h
      | failed reason =>
        rw [writeAll]
        refine ⟨fun ⟨w, h⟩ => (by cases h), fun h => ?_⟩
        cases h
      | upTo n =>
        rw [writeAll]
        by_cases hn : n = 0
        · rw [if_pos hn]
          refine ⟨fun ⟨w, h⟩ => (by cases h), fun h => ?_⟩
          cases h with
          | some h _ => omega
        · rw [if_neg hn, ih, List.length_drop]
          refine ⟨.some (by omega), fun h => ?_⟩
          cases h with
          | some _ h => exact h

/-- What has been taken, when writing ends. -/
theorem writeAll_received {received buffered : List U8} {answers : List WriteAnswer} {buf : List U8} {w : Writer}
    {r : Except Str Unit} (h : writeAll received buffered answers buf = .ret (w, r)) :
    w.buffered = buffered ∧ (r = .ok () → w.received = received ++ buf) ∧
      ∀ reason, r = .error reason → ∃ n, n < buf.length ∧ w.received = received ++ buf.take n := by
  induction answers generalizing received buf with
  | nil =>
    cases buf with
    | nil =>
      cases h
      exact ⟨rfl, fun _ => (by simp), fun _ h => (by cases h)⟩
    | cons b bs => cases h
  | cons a more ih =>
    cases buf with
    | nil =>
      simp only [writeAll] at h
      cases h
      exact ⟨rfl, fun _ => (by simp), fun _ h => (by cases h)⟩
    | cons b bs =>
      cases a with
      | interrupted =>
        rw [writeAll] at h
        exact ih h
      | failed reason =>
        rw [writeAll] at h
        cases h
        exact ⟨rfl, fun h => (by cases h), fun _ _ => ⟨0, by simp, by simp⟩⟩
      | upTo n =>
        rw [writeAll] at h
        by_cases hn : n = 0
        · rw [if_pos hn] at h
          cases h
          exact ⟨rfl, fun h => (by cases h), fun _ _ => ⟨0, by simp, by simp⟩⟩
        · rw [if_neg hn] at h
          obtain ⟨h1, h2, h3⟩ := ih h
          refine ⟨h1, fun hr => ?_, fun reason hr => ?_⟩
          · rw [h2 hr, List.append_assoc, List.take_append_drop]
          · obtain ⟨k, hk, e⟩ := h3 reason hr
            rw [List.length_drop] at hk
            refine ⟨n + k, by omega, ?_⟩
            rw [e, List.append_assoc, ← List.take_add]

/-! ### Standard output -/

theorem flushBuf_sent {received : List U8} {answers : List WriteAnswer} {buffered : List U8} {w : Writer}
    {r : Except Str Unit} (h : flushBuf received answers buffered = .ret (w, r)) :
    w.received ++ w.buffered = received ++ buffered ∧ (r = .ok () → w.buffered = []) := by
  induction answers generalizing received buffered with
  | nil =>
    cases buffered with
    | nil =>
      cases h
      exact ⟨rfl, fun _ => rfl⟩
    | cons b bs => cases h
  | cons a more ih =>
    cases buffered with
    | nil =>
      simp only [flushBuf] at h
      cases h
      exact ⟨rfl, fun _ => rfl⟩
    | cons b bs =>
      cases a with
      | interrupted =>
        rw [flushBuf] at h
        exact ih h
      | failed reason =>
        rw [flushBuf] at h
        cases h
        exact ⟨rfl, fun h => (by cases h)⟩
      | upTo n =>
        rw [flushBuf] at h
        by_cases hn : n = 0
        · rw [if_pos hn] at h
          cases h
          exact ⟨rfl, fun h => (by cases h)⟩
        · rw [if_neg hn] at h
          obtain ⟨h1, h2⟩ := ih h
          refine ⟨?_, h2⟩
          rw [h1, List.append_assoc, List.take_append_drop]

/-- Writing keeps the order: what has been sent and what is held back is the beginning of what was written, and all of it
when writing succeeds. -/
def Kept (w w' : Writer) (buf : List U8) (r : Except Str Unit) : Prop :=
  ∃ lost, w'.received ++ (w'.buffered ++ lost) = w.received ++ (w.buffered ++ buf) ∧ (r = .ok () → lost = [])

theorem bufWriteAll_kept {capacity : Nat} {w w' : Writer} {buf : List U8} {r : Except Str Unit}
    (h : bufWriteAll capacity w buf = .ret (w', r)) :
    Kept w w' buf r ∧ (r = .ok () → ∀ c ∈ w'.buffered, c ∈ w.buffered ∨ c ∈ buf) := by
  unfold bufWriteAll at h
  by_cases h1 : buf.length < capacity - w.buffered.length
  · rw [if_pos h1] at h
    cases h
    exact ⟨⟨[], by simp, fun _ => rfl⟩, fun _ c hc => List.mem_append.1 hc⟩
  · rw [if_neg h1] at h
    generalize hx : (if capacity - w.buffered.length < buf.length then flushBuf w.received w.answers w.buffered
      else Run.ret (w, Except.ok ())) = x at h
    cases x with
    | panic => cases h
    | ret p =>
      obtain ⟨v, s⟩ := p
      have hv : v.received ++ v.buffered = w.received ++ w.buffered ∧
          (s = .ok () → v.buffered = [] ∨ v = w ∧ buf.length ≤ capacity - w.buffered.length) := by
        by_cases h2 : capacity - w.buffered.length < buf.length
        · rw [if_pos h2] at hx
          exact ⟨(flushBuf_sent hx).1, fun e => .inl ((flushBuf_sent hx).2 e)⟩
        · rw [if_neg h2] at hx
          cases hx
          exact ⟨rfl, fun _ => .inr ⟨rfl, by omega⟩⟩
      have hb : ∀ x, v.received ++ (v.buffered ++ x) = w.received ++ (w.buffered ++ x) := by
        intro x
        rw [← List.append_assoc, hv.1, List.append_assoc]
      have hm : s = .ok () → ∀ c ∈ v.buffered, c ∈ w.buffered := by
        intro e c hc
        rcases hv.2 e with h | ⟨rfl, _⟩
        · rw [h] at hc
          cases hc
        · exact hc
      cases s with
      | error reason =>
        cases h
        exact ⟨⟨buf, hb buf, fun h => (by cases h)⟩, fun h => (by cases h)⟩
      | ok u =>
        change (if capacity ≤ buf.length then writeAll v.received v.buffered v.answers buf
          else Run.ret (⟨v.answers, v.received, v.buffered ++ buf⟩, Except.ok ())) = _ at h
        by_cases h3 : capacity ≤ buf.length
        · rw [if_pos h3] at h
          obtain ⟨e1, e2, e3⟩ := writeAll_received h
          have hz : v.buffered = [] ∨ buf = [] := by
            rcases hv.2 rfl with h | ⟨rfl, h4⟩
            · exact .inl h
            · by_cases hl : v.buffered.length = 0
              · exact .inl (List.length_eq_zero_iff.1 hl)
              · exact .inr (List.length_eq_zero_iff.1 (by omega))
          refine ⟨?_, fun _ c hc => .inl (hm rfl c (e1 ▸ hc))⟩
          cases r with
          | ok u =>
            refine ⟨[], ?_, fun _ => rfl⟩
            rw [← hb, e2 rfl, e1]
            rcases hz with hz | hz
            · simp [hz]
            · simp [hz]
          | error reason =>
            obtain ⟨n, hn, e⟩ := e3 reason rfl
            refine ⟨buf.drop n, ?_, fun h => (by cases h)⟩
            rw [← hb, e, e1]
            rcases hz with hz | hz
            · simp [hz]
            · simp [hz]
        · rw [if_neg h3] at h
          cases h
          refine ⟨⟨[], by simpa using hb buf, fun _ => rfl⟩, fun _ c hc => ?_⟩
          rcases List.mem_append.1 hc with hc | hc
          · exact .inl (hm rfl c hc)
          · exact .inr hc

theorem splitLines_spec (buf : List U8) :
    (splitLines buf).1 ++ (splitLines buf).2 = buf ∧ 10 ∉ (splitLines buf).2 ∧
      ((splitLines buf).1 = [] → 10 ∉ buf) ∧ (buf.getLast? = some 10 → splitLines buf = (buf, [])) := by
  have e : (splitLines buf).1 ++ (splitLines buf).2 = buf ∧ 10 ∉ (splitLines buf).2 := by
    unfold splitLines
    simp only
    have h := List.takeWhile_append_dropWhile (p := fun x : U8 => decide (x ≠ 10)) (l := buf.reverse)
    generalize ht : buf.reverse.takeWhile (fun x => decide (x ≠ 10)) = t at h ⊢
    generalize buf.reverse.dropWhile (fun x => decide (x ≠ 10)) = d at h
    have hb : buf = d.reverse ++ t.reverse := by
      rw [← List.reverse_append, h, List.reverse_reverse]
    constructor
    · rw [hb]
      simp
    · intro hm
      rw [List.mem_reverse, ← ht] at hm
      have := List.all_eq_true.1 (List.all_takeWhile (p := fun x : U8 => decide (x ≠ 10)) (l := buf.reverse)) _ hm
      simp at this
  refine ⟨e.1, e.2, fun h => ?_, fun h => ?_⟩
  · rw [h, List.nil_append] at e
    exact e.1 ▸ e.2
  · unfold splitLines
    have : buf.reverse.takeWhile (fun x => decide (x ≠ 10)) = [] := by
      rw [List.getLast?_eq_head?_reverse] at h
      cases hr : buf.reverse with
      | nil => rfl
      | cons c cs =>
        rw [hr] at h
        cases h
        rfl
    simp only [this]
    simp

/-- What `lineWriteAll` does: nothing is lost or reordered, and after a success no finished line is held back. -/
theorem lineWriteAll_kept {capacity : Nat} {w w' : Writer} {buf : List U8} {r : Except Str Unit}
    (h : lineWriteAll capacity w buf = .ret (w', r)) (hw : 10 ∉ w.buffered) :
    Kept w w' buf r ∧ (r = .ok () → 10 ∉ w'.buffered) := by
  obtain ⟨e, ht, hn, _⟩ := splitLines_spec buf
  unfold lineWriteAll at h
  generalize splitLines buf = p at e ht hn h
  obtain ⟨lines, tail⟩ := p
  simp only at e ht hn h
  by_cases hl : lines = []
  · rw [if_pos hl] at h
    have hlast : ¬ w.buffered.getLast? = some 10 := fun h => hw (List.mem_of_getLast? h)
    rw [if_neg hlast] at h
    change bufWriteAll capacity w buf = _ at h
    obtain ⟨h1, h2⟩ := bufWriteAll_kept h
    refine ⟨h1, fun hr hm => ?_⟩
    rcases h2 hr _ hm with hm | hm
    · exact hw hm
    · exact hn hl hm
  · rw [if_neg hl] at h
    generalize hx : (if w.buffered = [] then writeAll w.received w.buffered w.answers lines
      else thenWrite (bufWriteAll capacity w lines) fun w => flushBuf w.received w.answers w.buffered) = x at h
    cases x with
    | panic => cases h
    | ret q =>
      obtain ⟨v, s⟩ := q
      have hv : Kept w v lines s ∧ (s = .ok () → v.buffered = []) := by
        by_cases hb : w.buffered = []
        · rw [if_pos hb] at hx
          obtain ⟨e1, e2, e3⟩ := writeAll_received hx
          refine ⟨?_, fun _ => e1.trans hb⟩
          cases s with
          | ok u => exact ⟨[], by rw [e2 rfl, e1, hb]; simp, fun _ => rfl⟩
          | error reason =>
            obtain ⟨n, _, e⟩ := e3 reason rfl
            exact ⟨lines.drop n, by rw [e, e1, hb]; simp, fun h => (by cases h)⟩
        · rw [if_neg hb] at hx
          cases hy : bufWriteAll capacity w lines with
          | panic => rw [hy] at hx; cases hx
          | ret q =>
            obtain ⟨u, s'⟩ := q
            rw [hy] at hx
            obtain ⟨hk, _⟩ := bufWriteAll_kept hy
            cases s' with
            | error reason =>
              cases hx
              exact ⟨hk, fun h => (by cases h)⟩
            | ok _ =>
              change flushBuf u.received u.answers u.buffered = _ at hx
              obtain ⟨h1, h2⟩ := flushBuf_sent hx
              refine ⟨?_, h2⟩
              obtain ⟨lost, hk, h0⟩ := hk
              cases h0 rfl
              refine ⟨[], ?_, fun _ => rfl⟩
              rw [← hk]
              simpa using h1
      cases s with
      | error reason =>
        cases h
        obtain ⟨lost, hk, _⟩ := hv.1
        refine ⟨⟨lost ++ tail, ?_, fun h => (by cases h)⟩, fun h => (by cases h)⟩
        rw [← e, ← List.append_assoc w.buffered, ← List.append_assoc w.received, ← hk]
        simp
      | ok _ =>
        change bufWriteAll capacity v tail = _ at h
        obtain ⟨h1, h2⟩ := bufWriteAll_kept h
        have hv2 := hv.2 rfl
        obtain ⟨lost, hk, h0⟩ := hv.1
        cases h0 rfl
        constructor
        · obtain ⟨lost, hk', h0'⟩ := h1
          refine ⟨lost, ?_, h0'⟩
          rw [hk', ← e, ← List.append_assoc w.buffered, ← List.append_assoc w.received, ← hk]
          simp
        · intro hr hm
          rcases h2 hr _ hm with hm | hm
          · rw [hv2] at hm
            cases hm
          · exact ht hm

theorem writeEach_kept {capacity : Nat} {w w' : Writer} {bufs : List (List U8)} {r : Except Str Unit}
    (h : writeEach capacity w bufs = .ret (w', r)) (hw : 10 ∉ w.buffered) :
    Kept w w' bufs.flatten r ∧ (r = .ok () → 10 ∉ w'.buffered) := by
  induction bufs generalizing w with
  | nil =>
    cases h
    exact ⟨⟨[], by simp, fun _ => rfl⟩, fun _ => hw⟩
  | cons buf more ih =>
    unfold writeEach at h
    cases hy : lineWriteAll capacity w buf with
    | panic => rw [hy] at h; cases h
    | ret q =>
      obtain ⟨v, s⟩ := q
      rw [hy] at h
      obtain ⟨hk, hn⟩ := lineWriteAll_kept hy hw
      obtain ⟨lost, hk, h0⟩ := hk
      cases s with
      | error reason =>
        cases h
        refine ⟨⟨lost ++ more.flatten, ?_, fun h => (by cases h)⟩, fun h => (by cases h)⟩
        rw [List.flatten_cons, ← List.append_assoc w.buffered, ← List.append_assoc w.received, ← hk]
        simp
      | ok _ =>
        cases h0 rfl
        obtain ⟨h1, h2⟩ := ih (w := v) h (hn rfl)
        refine ⟨?_, h2⟩
        obtain ⟨lost, hk', h0'⟩ := h1
        refine ⟨lost, ?_, h0'⟩
        rw [hk', List.flatten_cons, ← List.append_assoc w.buffered, ← List.append_assoc w.received, ← hk]
        simp

end C8S
