import Verif.Proofs.Emit
import Verif.Proofs.Overlap

/- Lemmas on valid programs: the global conditions, memory images, moving constants and sections. -/

namespace C8S

open Spec

/-! ### Global conditions -/

theorem labelNames_append (p q : List Node) : labelNames (p ++ q) = labelNames p ++ labelNames q := by
  induction p with
  | nil => rfl
  | cons n p ih => cases n <;> simp [labelNames, ih]

theorem mem_labelNames {nodes : List Node} {name : Str} : name ∈ labelNames nodes ↔ ∃ loc, .label loc name ∈ nodes := by
  induction nodes with
  | nil => simp [labelNames]
  | cons n ns ih =>
    cases n with
    | label loc nm =>
      simp only [labelNames, List.mem_cons, ih, Node.label.injEq]
      constructor
      · rintro (rfl | ⟨l, h⟩)
        · exact ⟨loc, .inl ⟨rfl, rfl⟩⟩
        · exact ⟨l, .inr h⟩
      · rintro ⟨l, ⟨_, rfl⟩ | h⟩
        · exact .inl rfl
        · exact .inr ⟨l, h⟩
    | directive loc nm args => simp [labelNames, ih]
    | instruction loc m f => simp [labelNames, ih]

def DirectivesOk (nodes : List Node) : Prop :=
  ∀ loc name args, .directive loc name args ∈ nodes → ∃ d, DirectiveMeans name args d

def ConstantsOk (nodes : List Node) : Prop :=
  ∀ pre post v, nodes = pre ++ post → ConstantNext post v → EndsWithLabel pre

def FitsMemory (nodes : List Node) : Prop :=
  ∀ pre post a, nodes = pre ++ post → Reaches pre 0 a → a ≤ 0xFFF

theorem reaches_exists {nodes : List Node} (h : DirectivesOk nodes) (a : Nat) : ∃ b, Reaches nodes a b := by
  induction nodes generalizing a with
  | nil => exact ⟨a, .nil⟩
  | cons n ns ih =>
    have ih := ih (fun l nm ar hm => h l nm ar (by simp [hm]))
    obtain ⟨b, hb⟩ : ∃ b, Moves n a b := by
      cases n with
      | directive loc name args =>
        obtain ⟨d, hd⟩ := h loc name args (by simp)
        cases d with
        | org v => exact ⟨_, .org hd⟩
        | db bytes => exact ⟨_, .db hd⟩
        | equ v => exact ⟨_, .equ hd⟩
      | label loc name => exact ⟨_, .label⟩
      | instruction loc m f => exact ⟨_, .instruction⟩
    obtain ⟨c, hc⟩ := ih b
    exact ⟨c, .cons hb hc⟩

theorem clean_iff {nodes : List Node} : Clean nodes ↔
    DirectivesOk nodes ∧ ConstantsOk nodes ∧ (labelNames nodes).Nodup ∧ FitsMemory nodes := by
  constructor
  · intro h
    refine ⟨clean_directives h, ?_, ?_, ?_⟩
    · rintro pre post v rfl hc
      cases hc with
      | intro hm =>
        refine Classical.byContradiction fun hn => ?_
        exact h pre _ _ rfl _ (.stray hm hn)
    · suffices H : ∀ k (pre : List Node), pre.length = k → Clean pre → (labelNames pre).Nodup from H _ nodes rfl h
      intro k
      induction k with
      | zero =>
        intro pre hl _
        rw [List.length_eq_zero_iff] at hl
        subst hl
        simp [labelNames]
      | succ k ih =>
        intro pre hl hc
        rcases List.eq_nil_or_concat pre with rfl | ⟨p, n, rfl⟩
        · simp [labelNames]
        · rw [List.concat_eq_append] at *
          obtain ⟨hc, hf⟩ := clean_snoc.1 hc
          have hp := ih p (by simpa using hl) hc
          rw [labelNames_append]
          cases n with
          | label loc name =>
            simp only [labelNames]
            rw [List.nodup_append]
            refine ⟨hp, by simp, ?_⟩
            intro a ha b hb hab
            simp at hb
            subst hab hb
            obtain ⟨l, hm⟩ := mem_labelNames.1 ha
            exact hf _ (.redefined hm)
          | directive loc name args => simpa [labelNames] using hp
          | instruction loc m f => simpa [labelNames] using hp
    · rintro pre post a rfl hr
      exact clean_fits (clean_prefix h) hr
  · rintro ⟨h1, h2, h3, h4⟩ pre n post rfl e he
    have hd : DirectivesOk pre := fun l nm ar hm => h1 l nm ar (by simp [hm])
    obtain ⟨a, ha⟩ := reaches_exists hd 0
    have hfit : ∀ b, Moves n a b → b ≤ 0xFFF := fun b hb =>
      h4 (pre ++ [n]) post b (by simp) (reaches_snoc ha hb)
    cases he with
    | invalid hf =>
      obtain ⟨d, hd⟩ := h1 _ _ _ (List.mem_append_right _ List.mem_cons_self)
      exact not_means_and_fails hd hf
    | tooLarge hm hl => have := hfit _ (.db hm); omega
    | overflow hm _ hr hl =>
      cases reaches_unique ha hr
      have := hfit _ (.db hm)
      omega
    | stray hm hn => exact hn (h2 pre _ _ rfl (.intro hm))
    | redefined hm =>
      rw [labelNames_append, List.nodup_append] at h3
      exact h3.2.2 _ (mem_labelNames.2 ⟨_, hm⟩) _ (by simp [labelNames]) rfl
    | instructionOverflow hr hl =>
      cases reaches_unique ha hr
      have := hfit _ .instruction
      omega

theorem valid_iff {nodes : List Node} {labels : LabelMap} : Valid nodes labels ↔
    Clean nodes ∧ LabelsOf nodes labels ∧
      ∀ loc m fields, .instruction loc m fields ∈ nodes → ∃ w, Encodes labels m fields w := by
  constructor
  · intro h
    exact ⟨clean_iff.2 ⟨h.directives, h.constants, h.unique, h.fits⟩, h.labelValues, h.instructions⟩
  · rintro ⟨h1, h2, h3⟩
    obtain ⟨a, b, c, d⟩ := clean_iff.1 h1
    exact ⟨a, b, c, d, h2, h3⟩

/-! ### The memory image -/

theorem placeAt_append (a : Nat) (p q : List U8) : placeAt a (p ++ q) = placeAt a p ++ placeAt (a + p.length) q := by
  induction p generalizing a with
  | nil => simp [placeAt]
  | cons b p ih => simp [placeAt, ih, Nat.add_assoc, Nat.add_comm 1]

theorem mem_placeAt {a : Nat} {bytes : List U8} {x : Nat} {b : U8} :
    (x, b) ∈ placeAt a bytes ↔ a ≤ x ∧ bytes[x - a]? = some b := by
  induction bytes generalizing a with
  | nil => simp [placeAt]
  | cons c bytes ih =>
    simp only [placeAt, List.mem_cons, Prod.mk.injEq, ih]
    constructor
    · rintro (⟨rfl, rfl⟩ | ⟨h1, h2⟩)
      · simp
      · refine ⟨by omega, ?_⟩
        rw [show x - a = (x - (a + 1)) + 1 by omega]
        simpa using h2
    · rintro ⟨h1, h2⟩
      by_cases hx : x = a
      · subst hx
        simp at h2
        exact .inl ⟨rfl, h2.symm⟩
      · refine .inr ⟨by omega, ?_⟩
        rw [show x - a = (x - (a + 1)) + 1 by omega] at h2
        simpa using h2

theorem placeAt_addresses (a : Nat) (bytes : List U8) : (placeAt a bytes).map Prod.fst = List.range' a bytes.length := by
  induction bytes generalizing a with
  | nil => rfl
  | cons b bytes ih => simp [placeAt, ih, List.range']

theorem image_nonEmpty (secs : List DataRange) : image (nonEmpty secs) = image secs := by
  induction secs with
  | nil => rfl
  | cons r secs ih =>
    rw [nonEmpty_cons]
    unfold image at *
    rw [List.flatMap_append, ih]
    simp only [List.flatMap_cons]
    congr 1
    by_cases h : r.data = []
    · simp [nonEmpty, h, placeAt]
    · simp [nonEmpty, h]

/-- The image of the sections, when the first is offset by bytes already placed. -/
theorem sections_writes {labels : LabelMap} {start : U12} {nodes : List Node} {secs : List DataRange}
    (h : Sections labels start nodes secs) (data : List U8) (rest : List DataRange)
    (hs : secs = ⟨start, data⟩ :: rest) (a : Nat) : Writes labels nodes a (placeAt a data ++ image rest) := by
  induction h generalizing data rest a with
  | nil =>
    cases hs
    exact .nil
  | @org start v loc name args ns secs hm hsec ih =>
    cases hs
    obtain ⟨d, r, rfl⟩ := sections_head hsec
    have := ih d r rfl v.toNat
    simp only [placeAt, List.nil_append, image, List.flatMap_cons]
    exact .org hm this
  | @emit start n bytes d ns secs he hsec ih =>
    cases hs
    rw [placeAt_append, List.append_assoc]
    exact .emit he (ih d _ rfl _)

theorem sections_image {labels : LabelMap} {nodes : List Node} {secs : List DataRange}
    (h : Sections labels 0 nodes secs) : Writes labels nodes 0 (image secs) := by
  obtain ⟨d, r, rfl⟩ := sections_head h
  exact sections_writes h d r rfl 0

theorem writes_unique {labels : LabelMap} {nodes : List Node} {a : Nat} {ws ws' : List (Nat × U8)}
    (h : Writes labels nodes a ws) (h' : Writes labels nodes a ws') : ws = ws' := by
  induction h generalizing ws' with
  | nil => cases h'; rfl
  | org hm _ ih =>
    cases h' with
    | org hm' h' => cases means_unique hm hm'; exact ih h'
    | emit he _ => exact (emits_not_org he hm).elim
  | emit he _ ih =>
    cases h' with
    | org hm' h' => exact (emits_not_org he hm').elim
    | emit he' h' => cases emits_unique he he'; rw [ih h']

theorem writes_append {labels : LabelMap} {p q : List Node} {a b : Nat} {ws : List (Nat × U8)} (hp : Reaches p a b)
    (h : Writes labels (p ++ q) a ws) :
    ∃ w1 w2, ws = w1 ++ w2 ∧ Writes labels p a w1 ∧ Writes labels q b w2 := by
  induction p generalizing a ws with
  | nil => cases hp; exact ⟨[], ws, rfl, .nil, h⟩
  | cons n p ih =>
    cases hp with
    | cons hm hp =>
      cases h with
      | org ho h =>
        cases moves_unique hm (.org ho)
        obtain ⟨w1, w2, rfl, h1, h2⟩ := ih hp h
        exact ⟨w1, w2, rfl, .org ho h1, h2⟩
      | emit he h =>
        cases moves_unique hm (emits_moves he a)
        obtain ⟨w1, w2, rfl, h1, h2⟩ := ih hp h
        exact ⟨_, w2, by rw [List.append_assoc], .emit he h1, h2⟩

/-- Every written address is below an address reached by a prefix. -/
theorem writes_bound {labels : LabelMap} {nodes : List Node} {a : Nat} {ws : List (Nat × U8)}
    (h : Writes labels nodes a ws) : ∀ x b, (x, b) ∈ ws → ∃ p q c, nodes = p ++ q ∧ Reaches p a c ∧ x < c := by
  intro x b hx
  induction h with
  | nil => cases hx
  | @org loc name args v a ns ws hm _ ih =>
    obtain ⟨p, q, c, rfl, hr, hlt⟩ := ih hx
    exact ⟨_ :: p, q, c, rfl, .cons (.org hm) hr, hlt⟩
  | @emit n bytes a ns ws he _ ih =>
    rcases List.mem_append.1 hx with hx | hx
    · obtain ⟨h1, h2⟩ := mem_placeAt.1 hx
      have := (List.getElem?_eq_some_iff.1 h2).1
      exact ⟨[n], ns, _, rfl, reaches_single.2 (emits_moves he a), by omega⟩
    · obtain ⟨p, q, c, rfl, hr, hlt⟩ := ih hx
      exact ⟨_ :: p, q, c, rfl, .cons (emits_moves he a) hr, hlt⟩

/-- The end of every section is an address reached by a prefix. -/
theorem sections_bound {labels : LabelMap} {start : U12} {nodes : List Node} {secs : List DataRange}
    (h : Sections labels start nodes secs) (data : List U8) (rest : List DataRange)
    (hs : secs = ⟨start, data⟩ :: rest) (a : Nat) :
    (∃ p q, nodes = p ++ q ∧ Reaches p a (a + data.length)) ∧
    ∀ r ∈ rest, ∃ p q, nodes = p ++ q ∧ Reaches p a (rangeEnd r) := by
  induction h generalizing data rest a with
  | nil =>
    cases hs
    exact ⟨⟨[], [], rfl, .nil⟩, fun r hr => by cases hr⟩
  | @org start v loc name args ns secs hm hsec ih =>
    cases hs
    obtain ⟨d, r, rfl⟩ := sections_head hsec
    obtain ⟨⟨p, q, rfl, h1⟩, h2⟩ := ih d r rfl v.toNat
    refine ⟨⟨[], _, rfl, .nil⟩, fun s hs => ?_⟩
    rcases List.mem_cons.1 hs with rfl | hs
    · exact ⟨_ :: p, q, rfl, .cons (.org hm) h1⟩
    · obtain ⟨p', q', he, h⟩ := h2 s hs
      exact ⟨_ :: p', q', by rw [he]; rfl, .cons (.org hm) h⟩
  | @emit start n bytes d ns secs he hsec ih =>
    cases hs
    obtain ⟨⟨p, q, rfl, h1⟩, h2⟩ := ih d _ rfl (a + bytes.length)
    have hmv := emits_moves he a
    refine ⟨⟨n :: p, q, rfl, .cons hmv ?_⟩, fun s hs => ?_⟩
    · rw [List.length_append, ← Nat.add_assoc]
      exact h1
    · obtain ⟨p', q', he', h⟩ := h2 s hs
      exact ⟨_ :: p', q', by rw [he']; rfl, .cons hmv h⟩

theorem ranges_bound {nodes : List Node} {ranges : List DataRange} (h : assemble nodes = .ret (.ok ranges)) :
    ∀ r ∈ ranges, r.data ≠ [] ∧ rangeEnd r ≤ 0xFFF := by
  obtain ⟨labels, secs, hc, _, hs, rfl⟩ := assemble_ok_iff.1 h
  intro r hr
  simp only [nonEmpty, List.mem_filter, decide_eq_true_eq] at hr
  refine ⟨hr.2, ?_⟩
  obtain ⟨d, rest, rfl⟩ := sections_head hs
  obtain ⟨⟨p, q, he, h1⟩, h2⟩ := sections_bound hs d rest rfl 0
  rcases List.mem_cons.1 hr.1 with rfl | hm
  · have := clean_fits (clean_prefix (he ▸ hc)) h1
    simp only [rangeEnd]
    simpa using this
  · obtain ⟨p', q', he', h⟩ := h2 r hm
    exact clean_fits (clean_prefix (he' ▸ hc)) h

theorem image_nodup {ranges : List DataRange} :
    ((image ranges).map Prod.fst).Nodup ↔ ranges.Pairwise fun a b => ¬ Shares a b := by
  induction ranges with
  | nil => simp [image]
  | cons r rs ih =>
    have e : image (r :: rs) = placeAt r.startAddress.toNat r.data ++ image rs := rfl
    rw [e, List.map_append, List.nodup_append, ih, List.pairwise_cons, placeAt_addresses]
    have hmem : ∀ x, x ∈ (image rs).map Prod.fst ↔ ∃ s ∈ rs, Occupies s x := by
      intro x
      simp only [image, List.map_flatMap, List.mem_flatMap, placeAt_addresses, List.mem_range'_1]
      rfl
    constructor
    · rintro ⟨_, h2, h3⟩
      refine ⟨fun s hs hsh => ?_, h2⟩
      obtain ⟨x, hx, hy⟩ := hsh
      exact h3 x (List.mem_range'_1.2 hx) x ((hmem x).2 ⟨s, hs, hy⟩) rfl
    · rintro ⟨h1, h2⟩
      refine ⟨List.nodup_range', h2, ?_⟩
      intro x hx y hy hxy
      subst hxy
      obtain ⟨s, hs, hy⟩ := (hmem x).1 hy
      exact h1 s hs ⟨x, List.mem_range'_1.1 hx, hy⟩

end C8S
