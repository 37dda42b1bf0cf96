import Verif.Proofs.Combine
import Verif.Proofs.Text
import Verif.Props.Rewrite
import Verif.Spec.Edit

/- Lemmas on a change of one statement, and on the first statements of a program. -/

namespace C8S

open Spec

section

variable {A X Y B : List Node}

/-- Where the bytes of a block are in the sections, and what takes their place when the block is replaced. -/
theorem sections_spot {L : LabelMap} (hX : DataOnly X) (hY : DataOnly Y) {start : U12} {secs : List DataRange}
    (h : Sections L start (A ++ (X ++ B)) secs) :
    ∃ pre s d bytes d' post, secs = pre ++ ⟨s, d ++ (bytes ++ d')⟩ :: post ∧ EmitsBlock L X bytes ∧
      (∀ x, pre = [] → Reaches A x (x + d.length) ∧ s = start) ∧
      (pre ≠ [] → ∀ x, Reaches A x (s.toNat + d.length)) ∧
      ∀ bytes', EmitsBlock L Y bytes' → Sections L start (A ++ (Y ++ B)) (pre ++ ⟨s, d ++ (bytes' ++ d')⟩ :: post) := by
  induction A generalizing start secs with
  | nil =>
    obtain ⟨b, d, r, h1, h2, rfl⟩ := (sections_block hX).1 h
    exact ⟨[], start, [], b, d, r, rfl, h1, fun x _ => ⟨.nil, rfl⟩, fun h => (h rfl).elim,
      fun b' hb' => (sections_block hY).2 ⟨b', d, r, hb', h2, rfl⟩⟩
  | cons n A ih =>
    rw [List.cons_append] at h
    cases h with
    | @org _ v _ _ _ _ secs hd hs =>
      obtain ⟨pre, s, d, bytes, d', post, rfl, h1, h2, h3, h4⟩ := ih hs
      refine ⟨⟨start, []⟩ :: pre, s, d, bytes, d', post, rfl, h1, fun _ e => (by cases e), fun _ x => ?_,
        fun b' hb' => .org hd (h4 b' hb')⟩
      refine .cons (.org hd) ?_
      by_cases hp : pre = []
      · obtain ⟨h5, rfl⟩ := h2 v.toNat hp
        exact h5
      · exact h3 hp _
    | @emit _ _ bs data _ secs he hs =>
      obtain ⟨pre, s, d, bytes, d', post, e, h1, h2, h3, h4⟩ := ih hs
      cases pre with
      | nil =>
        simp only [List.nil_append, List.cons.injEq, DataRange.mk.injEq] at e
        obtain ⟨⟨rfl, rfl⟩, rfl⟩ := e
        refine ⟨[], start, bs ++ d, bytes, d', secs, by simp, h1, fun x _ => ⟨?_, rfl⟩, fun h => (h rfl).elim,
          fun b' hb' => ?_⟩
        · have := (h2 (x + bs.length) rfl).1
          rw [List.length_append, ← Nat.add_assoc]
          exact .cons (emits_moves he x) this
        · rw [List.nil_append, List.append_assoc]
          exact .emit he (h4 b' hb')
      | cons p pre =>
        simp only [List.cons_append, List.cons.injEq] at e
        obtain ⟨rfl, rfl⟩ := e
        refine ⟨⟨start, bs ++ data⟩ :: pre, s, d, bytes, d', post, rfl, h1, fun _ e => (by cases e), fun _ x => ?_,
          fun b' hb' => .emit he (h4 b' hb')⟩
        exact .cons (emits_moves he x) (h3 (by simp) _)

theorem emitsBlock_reaches {L : LabelMap} {bytes : List U8} (h : EmitsBlock L X bytes) (a : Nat) :
    Reaches X a (a + bytes.length) := by
  induction h generalizing a with
  | nil => exact .nil
  | cons h1 _ ih =>
    rw [List.length_append, ← Nat.add_assoc]
    exact .cons (emits_moves h1 a) (ih _)

theorem emitsBlock_exists {L : LabelMap} (hX : DataOnly X) {a k : Nat} (hk : Reaches X a k)
    (hi : ∀ loc m fields, .instruction loc m fields ∈ X → ∃ w, Encodes L m fields w) : ∃ bytes, EmitsBlock L X bytes := by
  obtain ⟨secs, h⟩ := sections_exist (labels := L) X (reaches_directives hk) hi 0
  rw [← List.append_nil X] at h
  obtain ⟨b, _, _, h1, _⟩ := (sections_block hX).1 h
  exact ⟨b, h1⟩

/-- The same, for the assembled output. -/
theorem SameSize.edited (h : SameSize X Y) {ranges : List DataRange}
    (ha : C8S.assemble (A ++ (X ++ B)) = .ret (.ok ranges)) :
    ∃ L pre s d bytes d' post, LabelsOf (A ++ (X ++ B)) L ∧ EmitsBlock L X bytes ∧
      ranges = nonEmpty (pre ++ ⟨s, d ++ (bytes ++ d')⟩ :: post) ∧ Reaches A 0 (s.toNat + d.length) ∧
      ∀ bytes', EmitsBlock L Y bytes' →
        C8S.assemble (A ++ (Y ++ B)) = .ret (.ok (nonEmpty (pre ++ ⟨s, d ++ (bytes' ++ d')⟩ :: post))) := by
  obtain ⟨L, secs, hc, hl, hs, rfl⟩ := assemble_ok_iff.1 ha
  obtain ⟨pre, s, d, bytes, d', post, rfl, h1, h2, h3, h4⟩ := sections_spot h.left h.right hs
  refine ⟨L, pre, s, d, bytes, d', post, hl, h1, rfl, ?_, fun b' hb' => assemble_ok_iff.2 ⟨L, _, h.clean hc, h.labelsOf.1 hl,
    h4 b' hb', rfl⟩⟩
  by_cases hp : pre = []
  · obtain ⟨h5, rfl⟩ := h2 0 hp
    simpa using h5
  · exact h3 hp 0

end

section

variable {p q : List Node}

/-- The first statements give a label the value that it has in the whole program, unless they end with it and a constant
follows. -/
theorem prefix_value (hn : ¬ (EndsWithLabel p ∧ ∃ c, ConstantNext q c)) {nm : Str} {v : U12} (h : LabelValue p nm v) :
    LabelValue (p ++ q) nm v := by
  obtain ⟨p1, loc, p2, rfl, hv⟩ := labelValue_iff.1 h
  refine labelValue_iff.2 ⟨p1, loc, p2 ++ q, by simp, ?_⟩
  rcases hv with hv | ⟨h1, h2⟩
  · cases hv with | intro hd => exact .inl (.intro hd)
  · refine .inr ⟨fun c hc => ?_, h2⟩
    cases p2 with
    | nil => exact hn ⟨⟨p1, loc, nm, rfl⟩, c, hc⟩
    | cons n p2 =>
      rw [List.cons_append] at hc
      cases hc with | intro hd => exact h1 c (.intro hd)

theorem encodes_uses {L : LabelMap} {m : Str} {fs : List Field} {w : Nat} (h : Encodes L m fs w) {name : Str}
    (hx : .identifier name ∈ fs) : ∃ v, L.get name = some v := by
  obtain ⟨row, _, v, _, hfa, hy, e⟩ := h
  clear hy
  generalize row.slots = slots at hfa
  induction hfa with
  | nil => cases hx
  | cons h0 _ ih =>
    rcases List.mem_cons.1 hx with rfl | hx
    · have hno : ∀ {n : Nat}, Denotes L (.identifier name) n → ∃ v, L.get name = some v := by
        intro n h
        cases h with | label h => exact ⟨_, h⟩
      cases h0 with
      | nn hd _ => exact hno hd
      | n hd _ => exact hno hd
      | addr hd => exact hno hd
    · exact ih hx

theorem encodes_agree {L L' : LabelMap} {m : Str} {fs : List Field} {w : Nat}
    (hx : ∀ s, .identifier s ∈ fs → L'.get s = L.get s) (h : Encodes L m fs w) : Encodes L' m fs w := by
  obtain ⟨row, hr, v, h1, h2, h3, h4⟩ := h
  exact ⟨row, hr, v, h1, fitsAll_agree hx h2, h3, h4⟩

theorem label_exists (h : Clean p) {loc : Loc} {s : Str} (hm : .label loc s ∈ p) : ∃ v, LabelValue p s v := by
  obtain ⟨p1, p2, rfl⟩ := List.append_of_mem hm
  by_cases hc : ∃ c, ConstantNext p2 c
  · obtain ⟨c, hc⟩ := hc
    exact ⟨c, .constant hc⟩
  · obtain ⟨h1, _, _, h4⟩ := clean_iff.1 h
    obtain ⟨a, ha⟩ := reaches_exists (nodes := p1) (fun l nm ar hm => h1 l nm ar (List.mem_append_left _ hm)) 0
    have := h4 p1 _ a rfl ha
    refine ⟨BitVec.ofNat 12 a, .address (fun c h => hc ⟨c, h⟩) ?_⟩
    rw [BitVec.toNat_ofNat, Nat.mod_eq_of_lt (by omega)]
    exact ha

end

/-! ### Texts made of parts -/

/-- The tokens and statements of a text, without locations. -/
def HasCut [Target] (text : Str) (nodes : List Node) : Prop := ∃ ts, Cut wordBinary text ts ∧ Program ts (nodes.map bareNode)

theorem statements_cut [Target] {text : Str} {nodes : List Node} (h : Statements text nodes) : HasCut text nodes := by
  obtain ⟨file, tokens, hs, hp⟩ := h
  exact ⟨_, cut_of_lex ((scan_iff_lex _ _ _).1 hs) (program_no_error ((parse_ok_iff _ _).1 hp)),
    (parse_ok_iff _ _).1 (parse_map nowhere hp)⟩

theorem hasCut_append [Target] {a b : Str} {p q : List Node} (ha : WholeLines a) (h : HasCut a p) (h' : HasCut b q) :
    HasCut (a ++ b) (p ++ q) := by
  obtain ⟨t1, c1, p1⟩ := h
  obtain ⟨t2, c2, p2⟩ := h'
  exact ⟨_, cut_append c1 c2 (whole_apart ha c1), by rw [List.map_append]; exact program_append p1 p2⟩

theorem hasCut_describes [Target] {file text : Str} {nodes : List Node} (h : HasCut text nodes) (bytes : List (Nat × U8)) :
    Describes wordBinary file text bytes ↔ ∃ ranges, assemble nodes = .ret (.ok ranges) ∧ bytes = image ranges := by
  obtain ⟨ts, hc, hp⟩ := h
  rw [describes_cut]
  constructor
  · rintro ⟨ts', ns, ranges, hc', hp', ha, e⟩
    cases cut_unique hc hc'
    cases program_unique hp hp'
    exact ⟨ranges, assemble_bare (by rw [List.map_map]; congr 1; funext n; cases n <;> rfl) ha, e⟩
  · rintro ⟨ranges, ha, e⟩
    exact ⟨ts, _, ranges, hc, hp, assemble_bare (by rw [List.map_map]; congr 1; funext n; cases n <;> rfl) ha, e⟩

end C8S
