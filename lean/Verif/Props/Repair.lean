import Verif.Proofs.Repair

/- Property C110: repairing a program statement by statement. -/

namespace C8S

open Spec

/-! ### C110 -/

/-- C110: when the statement reported for its directive, label or address is replaced by any statements, or removed, no
statement before it is reported for such a reason. -/
theorem C110_layout (pre fix post : List Node) (n : Node) (e e' : SemanticError) (ho : OwnPlaces (pre ++ n :: post))
    (ho' : OwnPlaces (pre ++ (fix ++ post))) (h : assemble (pre ++ n :: post) = .ret (.error e)) (hn : ¬ InstructionFault e)
    (hl : faultLocation e = nodeLocation n) (h' : assemble (pre ++ (fix ++ post)) = .ret (.error e')) (hn' : ¬ InstructionFault e') :
    faultLocation e' ∈ (fix ++ post).map nodeLocation ∧ faultLocation e' ∉ pre.map nodeLocation := by
  obtain ⟨p, m, q, he, hc, hf, hm⟩ := report_layout h hn
  obtain ⟨rfl, rfl, rfl⟩ := own_unique ho he (hl.symm.trans hm)
  obtain ⟨p', m', q', he', hc', hf', hm'⟩ := report_layout h' hn'
  have hin : m' ∈ fix ++ post := by
    rcases List.append_eq_append_iff.1 he' with ⟨r, rfl, hq⟩ | ⟨r, rfl, hq⟩
    · rw [hq]; simp
    · cases r with
      | nil =>
        have : m' ∈ [] ++ (fix ++ post) := by rw [← hq]; simp
        exact this
      | cons x r =>
        cases hq
        exact (hc p' m' r rfl e' hf').elim
  have h1 : faultLocation e' ∈ (fix ++ post).map nodeLocation := by
    rw [hm']; exact List.mem_map.2 ⟨m', hin, rfl⟩
  refine ⟨h1, fun h2 => ?_⟩
  unfold OwnPlaces at ho'
  rw [List.map_append, List.nodup_append] at ho'
  exact ho'.2.2 _ h2 _ h1 rfl

/-- Line 3 is reported for its directive; without it line 4 is. -/
example : (∃ r, assemble [.label ⟨[], 1, 1, 1⟩ "a".toList, .instruction ⟨[], 2, 1, 1⟩ "cls".toList [], .directive ⟨[], 3, 1, 1⟩ "x".toList [],
      .label ⟨[], 4, 1, 1⟩ "a".toList] = .ret (.error (.directiveInvalid ⟨[], 3, 1, 1⟩ r))) ∧
    assemble [.label ⟨[], 1, 1, 1⟩ "a".toList, .instruction ⟨[], 2, 1, 1⟩ "cls".toList [], .label ⟨[], 4, 1, 1⟩ "a".toList] =
      .ret (.error (.redefinitionOfLabel ⟨[], 4, 1, 1⟩ "a".toList)) := ⟨⟨_, rfl⟩, rfl⟩

/-- C110: when an instruction reported for its words is replaced by another instruction, no directive, label or address is
reported, and no statement before it. -/
theorem C110_instruction (pre post : List Node) (l l' : Loc) (m m' : Str) (f f' : List Field) (e e' : SemanticError)
    (ho : OwnPlaces (pre ++ .instruction l m f :: post)) (ho' : OwnPlaces (pre ++ .instruction l' m' f' :: post))
    (h : assemble (pre ++ .instruction l m f :: post) = .ret (.error e)) (hi : InstructionFault e) (hl : faultLocation e = l)
    (h' : assemble (pre ++ .instruction l' m' f' :: post) = .ret (.error e')) :
    InstructionFault e' ∧ faultLocation e' ∈ (.instruction l' m' f' :: post).map nodeLocation ∧
      faultLocation e' ∉ pre.map nodeLocation := by
  obtain ⟨L, p, k, n, g, q, reason, he, hd, hpre, _, hm⟩ := report_instruction h hi
  obtain ⟨rfl, hn, rfl⟩ := own_unique ho he (show l = k from hl.symm.trans hm)
  have hd' : defineLabels (pre ++ .instruction l' m' f' :: post) = .ok L := labels_instruction pre _ (Nat.le_refl _) _ _ hd
  have hi' : InstructionFault e' := Classical.byContradiction fun hn' => by
    obtain ⟨p, n, q, he', hc', hf', _⟩ := report_layout h' hn'
    have := defineLabels_error_iff.2 ⟨p, n, q, he', hc', hf'⟩
    rw [hd'] at this
    cases this
  obtain ⟨L', p', k', n', g', q', reason', he', hd'', hpre', hfail, hm'⟩ := report_instruction h' hi'
  cases hd'.symm.trans hd''
  have hin : Node.instruction k' n' g' ∈ .instruction l' m' f' :: post := by
    rcases List.append_eq_append_iff.1 he' with ⟨r, rfl, hq⟩ | ⟨r, rfl, hq⟩
    · rw [hq]; simp
    · cases r with
      | nil =>
        have : Node.instruction k' n' g' ∈ [] ++ (Node.instruction l' m' f' :: post) := by rw [← hq]; simp
        exact this
      | cons x r =>
        cases hq
        obtain ⟨w, hw⟩ := hpre k' n' g' (by simp)
        exact (not_encodes_and_fails hw hfail).elim
  have h1 : faultLocation e' ∈ (Node.instruction l' m' f' :: post).map nodeLocation := by
    rw [hm']; exact List.mem_map.2 ⟨_, hin, rfl⟩
  refine ⟨hi', h1, fun h2 => ?_⟩
  unfold OwnPlaces at ho'
  rw [List.map_append, List.nodup_append] at ho'
  exact ho'.2.2 _ h2 _ h1 rfl

/-- Line 2 is reported for its operand; when it is repaired, line 3 is. -/
example : (∃ r, assemble [.instruction ⟨[], 1, 1, 1⟩ "cls".toList [], .instruction ⟨[], 2, 1, 1⟩ "jp".toList [.identifier "a".toList],
      .instruction ⟨[], 3, 1, 1⟩ "x".toList []] = .ret (.error (.assemblyFailed ⟨[], 2, 1, 1⟩ r))) ∧
    (∃ r, assemble [.instruction ⟨[], 1, 1, 1⟩ "cls".toList [], .instruction ⟨[], 2, 1, 1⟩ "jp".toList [.numericLiteral 0],
      .instruction ⟨[], 3, 1, 1⟩ "x".toList []] = .ret (.error (.assemblyFailed ⟨[], 3, 1, 1⟩ r))) := ⟨⟨_, rfl⟩, ⟨_, rfl⟩⟩

/-- C110: the statement that is reported exists. -/
theorem C110_reported (nodes : List Node) (e : SemanticError) (h : assemble nodes = .ret (.error e)) :
    ∃ n ∈ nodes, faultLocation e = nodeLocation n ∧ (InstructionFault e → ∃ l m f, n = .instruction l m f) := by
  by_cases hi : InstructionFault e
  · obtain ⟨_, p, l, m, f, q, _, he, _, _, _, hl⟩ := report_instruction h hi
    exact ⟨.instruction l m f, by rw [he]; simp, hl, fun _ => ⟨l, m, f, rfl⟩⟩
  · obtain ⟨p, n, q, he, _, _, hl⟩ := report_layout h hi
    exact ⟨n, by rw [he]; simp, hl, fun h => (hi h).elim⟩

theorem rounds_rank {p r : List Node} {k : Nat} (h : Rounds p k r) : OwnPlaces p → k = 0 ∨ ∃ pre n post e,
    p = pre ++ n :: post ∧ assemble p = .ret (.error e) ∧ faultLocation e = nodeLocation n ∧
      ((InstructionFault e ∧ k ≤ post.length + 1) ∨ (¬ InstructionFault e ∧ k ≤ post.length + 1 + p.length)) := by
  induction h with
  | none => intro _; exact .inl rfl
  | @more p q r k hr _ ih =>
    intro ho
    cases hr with
    | @intro pre post n n' e h hl hi ho' hne =>
      refine .inr ⟨pre, n, post, e, rfl, h, hl, ?_⟩
      rcases ih ho' with rfl | ⟨pre2, n2, post2, e2, heq, h2, hl2, hb⟩
      · by_cases hc : InstructionFault e
        · exact .inl ⟨hc, by omega⟩
        · exact .inr ⟨hc, by omega⟩
      · -- a statement not before the repaired one, and not that one, comes after it
        have later : faultLocation e2 ∉ pre.map nodeLocation → faultLocation e2 ≠ nodeLocation n' → post2.length + 1 ≤ post.length := by
          intro h3 h4
          rw [hl2] at h3 h4
          rcases List.append_eq_append_iff.1 heq with ⟨r, rfl, hq⟩ | ⟨r, rfl, hq⟩
          · cases r with
            | nil => cases hq; exact (h4 rfl).elim
            | cons x r => cases hq; simp
          · cases r with
            | nil => cases hq; exact (h4 rfl).elim
            | cons x r => cases hq; exact (h3 (by simp)).elim
        have hlen : post2.length + 1 ≤ (pre ++ n' :: post).length := by rw [heq]; simp
        have hlen' : (pre ++ n' :: post).length = (pre ++ n :: post).length := by simp
        by_cases hc : InstructionFault e
        · obtain ⟨l', m', f', rfl⟩ := hi hc
          obtain ⟨_, p, l, m, f, q, _, he, _, _, _, hlq⟩ := report_instruction h hc
          obtain ⟨rfl, rfl, rfl⟩ := own_unique ho he (hl.symm.trans hlq)
          obtain ⟨hc2, _, h3⟩ := C110_instruction pre post l l' m m' f f' e e2 ho ho' h hc hl h2
          have := later h3 fun h4 => (hne e2 h2 h4).2 hc
          rcases hb with ⟨_, hb⟩ | ⟨hb, _⟩
          · exact .inl ⟨hc, by omega⟩
          · exact (hb hc2).elim
        · refine .inr ⟨hc, ?_⟩
          rcases hb with ⟨_, hb⟩ | ⟨hc2, hb⟩
          · omega
          · obtain ⟨_, h3⟩ := C110_layout pre [n'] post n e e2 ho ho' h hc hl h2 hc2
            have := later h3 fun h4 => hc2 (hne e2 h2 h4).1
            omega

/-- C110: a program is repaired in at most two rounds for each of its statements, whatever it is replaced by. -/
theorem C110_rounds (p r : List Node) (k : Nat) (ho : OwnPlaces p) (h : Rounds p k r) : k ≤ 2 * p.length := by
  rcases rounds_rank h ho with rfl | ⟨pre, n, post, e, rfl, _, _, ⟨_, hb⟩ | ⟨_, hb⟩⟩
  · omega
  · simp; omega
  · simp at hb ⊢; omega

/-- Two rounds for one statement: first its directive is reported, then its operand. -/
example : Rounds [.directive ⟨[], 1, 1, 1⟩ "x".toList []] 2 [.instruction ⟨[], 1, 1, 1⟩ "cls".toList []] := by
  refine .more (q := [.instruction ⟨[], 1, 1, 1⟩ "jp".toList [.identifier "a".toList]]) ?_ (.more ?_ .none)
  · refine .intro (pre := []) (post := []) (n := .directive ⟨[], 1, 1, 1⟩ "x".toList [])
      (n' := .instruction ⟨[], 1, 1, 1⟩ "jp".toList [.identifier "a".toList]) (e := .directiveInvalid ⟨[], 1, 1, 1⟩ _) rfl rfl
      (fun h => h.elim) (by simp [OwnPlaces]) ?_
    intro e' h _
    cases h
    exact ⟨trivial, fun h => h⟩
  · refine .intro (pre := []) (post := []) (n := .instruction ⟨[], 1, 1, 1⟩ "jp".toList [.identifier "a".toList])
      (n' := .instruction ⟨[], 1, 1, 1⟩ "cls".toList []) (e := .assemblyFailed ⟨[], 1, 1, 1⟩ _) rfl rfl
      (fun _ => ⟨_, _, _, rfl⟩) (by simp [OwnPlaces]) ?_
    intro e' h _
    cases h

/-- C110: in a text each statement has a place of its own. -/
theorem C110_places [Target] (file text : Str) (tokens : List Token) (nodes : List Node) (h : scan file text = .ret tokens)
    (hp : parse tokens = .ret (.ok nodes)) : OwnPlaces nodes := by
  obtain ⟨pieces, tail, hP, hloc⟩ := C04_locations file text tokens h
  refine (C91_statements file text tokens nodes h hp).imp_of_mem fun {a b} ha hb hab e => ?_
  subst e
  obtain ⟨n, hn, rfl⟩ := List.mem_map.1 ha
  obtain ⟨name, hm⟩ := program_location ((parse_ok_iff _ _).1 hp) n hn
  have := (C04_positive file text tokens h _ hm).2
  rcases hab with h1 | ⟨_, h1⟩
  · omega
  · simp only [Token.location] at this
    omega

example : OwnPlaces [.instruction ⟨[], 1, 1, 3⟩ "ret".toList [], .directive ⟨[], 2, 2, 2⟩ "db".toList [.numeric 7]] :=
  C110_places [] "ret\n.db 7".toList _ _ rfl rfl

/-- C110: a report can move up when a directive further down is repaired: instructions are looked at last. -/
theorem C110_upwards : ∃ (a b b' : Node) (e e' : SemanticError), OwnPlaces [a, b] ∧ OwnPlaces [a, b'] ∧
    assemble [a, b] = .ret (.error e) ∧ faultLocation e = nodeLocation b ∧
    assemble [a, b'] = .ret (.error e') ∧ faultLocation e' = nodeLocation a :=
  ⟨.instruction ⟨[], 1, 1, 2⟩ "jp".toList [], .directive ⟨[], 2, 2, 2⟩ "db".toList [], .directive ⟨[], 2, 2, 2⟩ "db".toList [.numeric 7], _, _,
    by simp [OwnPlaces, nodeLocation], by simp [OwnPlaces, nodeLocation], rfl, rfl, rfl, rfl⟩

end C8S
