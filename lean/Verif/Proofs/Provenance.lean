import Verif.Spec.Provenance
import Verif.Proofs.Valid
import Verif.Proofs.Tool
import Verif.Proofs.Pieces
import Verif.Proofs.Lines

/- Which statement a byte of the output comes from. -/

namespace C8S

open Spec

/-- `Puts` with the address of the first statement. -/
def PutsFrom (labels : LabelMap) (nodes : List Node) (start i x : Nat) (b : U8) : Prop :=
  ∃ pre n post a bytes, nodes = pre ++ n :: post ∧ pre.length = i ∧ Reaches pre start a ∧ Emits labels n bytes ∧
    a ≤ x ∧ bytes[x - a]? = some b

theorem putsFrom_nil {labels : LabelMap} {start i x : Nat} {b : U8} : ¬ PutsFrom labels [] start i x b := by
  rintro ⟨pre, n, post, a, bytes, h, _⟩
  simp at h

theorem putsFrom_zero {labels : LabelMap} {n : Node} {ns : List Node} {start x : Nat} {b : U8} :
    PutsFrom labels (n :: ns) start 0 x b ↔ ∃ bytes, Emits labels n bytes ∧ start ≤ x ∧ bytes[x - start]? = some b := by
  constructor
  · rintro ⟨pre, n', post, a, bytes, h, hl, hr, he, h1, h2⟩
    obtain rfl := List.length_eq_zero_iff.1 hl
    cases h
    cases hr
    exact ⟨bytes, he, h1, h2⟩
  · rintro ⟨bytes, he, h1, h2⟩
    exact ⟨[], n, ns, start, bytes, rfl, rfl, .nil, he, h1, h2⟩

theorem putsFrom_succ {labels : LabelMap} {n : Node} {ns : List Node} {start i x c : Nat} {b : U8} (hm : Moves n start c) :
    PutsFrom labels (n :: ns) start (i + 1) x b ↔ PutsFrom labels ns c i x b := by
  constructor
  · rintro ⟨pre, n', post, a, bytes, h, hl, hr, he, h1, h2⟩
    cases pre with
    | nil => simp at hl
    | cons m pre =>
      simp only [List.cons_append, List.cons.injEq] at h
      obtain ⟨rfl, rfl⟩ := h
      cases hr with
      | cons hm' hr =>
        cases reaches_unique (.cons hm .nil) (.cons hm' .nil)
        exact ⟨pre, n', post, a, bytes, rfl, by simpa using hl, hr, he, h1, h2⟩
  · rintro ⟨pre, n', post, a, bytes, rfl, hl, hr, he, h1, h2⟩
    exact ⟨n :: pre, n', post, a, bytes, rfl, by simp [hl], .cons hm hr, he, h1, h2⟩

/-- The bytes written are those that the statements put somewhere. -/
theorem writes_puts {labels : LabelMap} {nodes : List Node} {a : Nat} {ws : List (Nat × U8)} (h : Writes labels nodes a ws)
    (x : Nat) (b : U8) : (x, b) ∈ ws ↔ ∃ i, PutsFrom labels nodes a i x b := by
  induction h with
  | nil => simp [putsFrom_nil]
  | @org loc name args v a ns ws hm _ ih =>
    rw [ih]
    constructor
    · rintro ⟨i, hi⟩
      exact ⟨i + 1, (putsFrom_succ (.org hm)).2 hi⟩
    · rintro ⟨i, hi⟩
      cases i with
      | zero =>
        obtain ⟨bytes, he, _⟩ := putsFrom_zero.1 hi
        exact (emits_not_org he hm).elim
      | succ i => exact ⟨i, (putsFrom_succ (.org hm)).1 hi⟩
  | @emit n bytes a ns ws he _ ih =>
    rw [List.mem_append, mem_placeAt, ih]
    constructor
    · rintro (⟨h1, h2⟩ | ⟨i, hi⟩)
      · exact ⟨0, putsFrom_zero.2 ⟨bytes, he, h1, h2⟩⟩
      · exact ⟨i + 1, (putsFrom_succ (emits_moves he a)).2 hi⟩
    · rintro ⟨i, hi⟩
      cases i with
      | zero =>
        obtain ⟨bytes', he', h1, h2⟩ := putsFrom_zero.1 hi
        cases emits_unique he he'
        exact .inl ⟨h1, h2⟩
      | succ i => exact .inr ⟨i, (putsFrom_succ (emits_moves he a)).1 hi⟩

/-- No address is written twice exactly if no two statements put a byte there. -/
theorem writes_nodup {labels : LabelMap} {nodes : List Node} {a : Nat} {ws : List (Nat × U8)} (h : Writes labels nodes a ws) :
    (ws.map Prod.fst).Nodup ↔
      ∀ x i j b c, PutsFrom labels nodes a i x b → PutsFrom labels nodes a j x c → i = j := by
  induction h with
  | nil => simp [putsFrom_nil]
  | @org loc name args v a ns ws hm _ ih =>
    rw [ih]
    constructor
    · intro H x i j b c h1 h2
      cases i with
      | zero =>
        obtain ⟨bytes, he, _⟩ := putsFrom_zero.1 h1
        exact (emits_not_org he hm).elim
      | succ i =>
        cases j with
        | zero =>
          obtain ⟨bytes, he, _⟩ := putsFrom_zero.1 h2
          exact (emits_not_org he hm).elim
        | succ j => rw [H x i j b c ((putsFrom_succ (.org hm)).1 h1) ((putsFrom_succ (.org hm)).1 h2)]
    · intro H x i j b c h1 h2
      exact Nat.succ.inj (H x (i + 1) (j + 1) b c ((putsFrom_succ (.org hm)).2 h1) ((putsFrom_succ (.org hm)).2 h2))
  | @emit n bytes a ns ws he hw ih =>
    have hm := emits_moves he a
    have hz : ∀ x b, PutsFrom labels (n :: ns) a 0 x b ↔ (x, b) ∈ placeAt a bytes := by
      intro x b
      rw [putsFrom_zero, mem_placeAt]
      constructor
      · rintro ⟨bytes', he', h⟩
        cases emits_unique he he'
        exact h
      · exact fun h => ⟨bytes, he, h⟩
    rw [List.map_append, List.nodup_append, ih, placeAt_addresses]
    have hfst : ∀ x, x ∈ List.range' a bytes.length ↔ ∃ b, (x, b) ∈ placeAt a bytes := by
      intro x
      rw [← placeAt_addresses]
      simp
    constructor
    · rintro ⟨_, H, hd⟩ x i j b c h1 h2
      have hno : ∀ b c i, PutsFrom labels (n :: ns) a 0 x b → PutsFrom labels (n :: ns) a (i + 1) x c → False := by
        intro b c i h1 h2
        refine hd x ((hfst x).2 ⟨b, (hz x b).1 h1⟩) x ?_ rfl
        rw [List.mem_map]
        exact ⟨(x, c), (writes_puts hw x c).2 ⟨i, (putsFrom_succ hm).1 h2⟩, rfl⟩
      cases i with
      | zero =>
        cases j with
        | zero => rfl
        | succ j => exact (hno b c j h1 h2).elim
      | succ i =>
        cases j with
        | zero => exact (hno c b i h2 h1).elim
        | succ j => rw [H x i j b c ((putsFrom_succ hm).1 h1) ((putsFrom_succ hm).1 h2)]
    · intro H
      refine ⟨List.nodup_range' .., fun x i j b c h1 h2 => ?_, ?_⟩
      · exact Nat.succ.inj (H x (i + 1) (j + 1) b c ((putsFrom_succ hm).2 h1) ((putsFrom_succ hm).2 h2))
      · rintro x h1 y h2 rfl
        obtain ⟨b, hb⟩ := (hfst x).1 h1
        obtain ⟨⟨y, c⟩, hc, rfl⟩ := List.mem_map.1 h2
        obtain ⟨i, hi⟩ := (writes_puts hw y c).1 hc
        cases H y 0 (i + 1) b c ((hz y b).2 hb) ((putsFrom_succ hm).2 hi)

/-! ### Locations -/

theorem firstLine_noNewline {s : Str} (h : '\n' ∉ s) : firstLine s = s.length := by
  induction s with
  | nil => rfl
  | cons c s ih =>
    simp only [List.mem_cons, not_or] at h
    rw [firstLine, if_neg (fun e => h.1 e.symm), ih h.2]
    rfl

theorem locate_earlier (file before p q r : Str) : Earlier (locate file before p) (locate file (before ++ (p ++ q)) r) := by
  by_cases h : '\n' ∈ p ++ q
  · left
    have := List.count_pos_iff.2 h
    simp only [locate, newlines_append]
    unfold newlines at *
    rw [List.count_append] at this
    omega
  · right
    refine ⟨?_, ?_⟩
    · simp only [locate, newlines_append]
      have := List.count_eq_zero.2 h
      unfold newlines
      rw [List.count_append] at this
      omega
    · simp only [locate]
      rw [sinceNewline_append, if_neg h, firstLine_noNewline (fun hp => h (by simp [hp]))]
      simp
      omega

theorem textBefore_later {pieces : List (Str × Str)} {i j : Nat} {p q : Str × Str} (hij : i < j) (hp : pieces[i]? = some p)
    (hq : pieces[j]? = some q) : ∃ m, textBefore pieces j q = textBefore pieces i p ++ (p.2 ++ m) := by
  obtain ⟨hi, rfl⟩ := List.getElem?_eq_some_iff.1 hp
  have : pieces.take j = pieces.take i ++ pieces[i] :: (pieces.take j).drop (i + 1) := by
    have h1 : i < (pieces.take j).length := by
      have := (List.getElem?_eq_some_iff.1 hq).1
      simp
      omega
    have := List.take_append_drop i (pieces.take j)
    rw [List.drop_eq_getElem_cons h1, List.getElem_take, List.take_take, Nat.min_eq_left (by omega)] at this
    exact this.symm
  generalize (pieces.take j).drop (i + 1) = d at this
  refine ⟨(d.map fun p => p.1 ++ p.2).flatten ++ q.1, ?_⟩
  unfold textBefore
  rw [this, List.map_append, List.map_cons, List.flatten_append, List.flatten_cons]
  simp only [List.append_assoc]

theorem scan_earlier {file : Str} {tokens : List Token} {pieces : List (Str × Str)} (hcount : pieces.length = tokens.length)
    (hloc : ∀ (i : Nat) (t : Token) (p : Str × Str), tokens[i]? = some t → pieces[i]? = some p →
      t.location = locate file (textBefore pieces i p) p.2) : (tokens.map Token.location).Pairwise Earlier := by
  rw [List.pairwise_iff_getElem]
  intro i j hi hj hij
  simp only [List.length_map] at hi hj
  have hi' : i < pieces.length := by omega
  have hj' : j < pieces.length := by omega
  obtain ⟨m, hm⟩ := textBefore_later hij (List.getElem?_eq_getElem hi') (List.getElem?_eq_getElem hj')
  rw [List.getElem_map, List.getElem_map, hloc i _ _ (List.getElem?_eq_getElem hi) (List.getElem?_eq_getElem hi'),
    hloc j _ _ (List.getElem?_eq_getElem hj) (List.getElem?_eq_getElem hj'), hm]
  exact locate_earlier _ _ _ _ _

/-- The statements are located at tokens, in order. -/
theorem program_locations {ts : List Token} {ns : List Node} (h : Program ts ns) :
    (ns.map nodeLocation).Sublist (ts.map Token.location) := by
  induction h with
  | empty => exact .slnil
  | blank _ _ ih => exact .cons _ ih
  | label _ ih => exact .cons_cons _ (.cons _ ih)
  | directive _ _ _ ih =>
    simp only [List.map_cons, List.map_append]
    exact .cons _ (.cons_cons _ (ih.trans (List.sublist_append_right _ _)))
  | instruction _ _ _ ih =>
    simp only [List.map_cons, List.map_append]
    exact .cons_cons _ (ih.trans (List.sublist_append_right _ _))

end C8S
