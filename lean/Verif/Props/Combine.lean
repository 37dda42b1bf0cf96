import Verif.Proofs.Combine
import Verif.Props.Rewrite
import Verif.Props.Relocation
import Verif.Props.Text

/- Properties on adding labels, joining programs and moving sections: C60 to C62. -/

namespace C8S

open Spec LayoutExample

/-! ### C60: labels that nothing uses -/

/-- C60: a label that no instruction uses can be added or removed without changing the output, if its name is not that
of another label. Adding it before a constant is excluded, since it would take the constant from its label. -/
theorem C60_unused (A B : List Node) (l : Loc) (name : Str) (hB : ∀ c, ¬ ConstantNext B c)
    (hu : ∀ l' m fs, .instruction l' m fs ∈ A ++ B → .identifier name ∉ fs) (ranges : List DataRange) :
    assemble (A ++ .label l name :: B) = .ret (.ok ranges) ↔
      name ∉ labelNames (A ++ B) ∧ assemble (A ++ B) = .ret (.ok ranges) := label_assemble hB hu

/-- A label that is not used, and its removal. -/
example : assemble [db7, here, limit, equ5] = .ret (.ok [⟨0, [7]⟩]) ↔
    "here".toList ∉ labelNames [db7, limit, equ5] ∧ assemble [db7, limit, equ5] = .ret (.ok [⟨0, [7]⟩]) :=
  C60_unused [db7] [limit, equ5] loc "here".toList (by intro c h; cases h) (by simp [db7, limit, equ5]) _

/-- C60: adding a label with a new name to an assembled program never changes the output. -/
theorem C60_added (A B : List Node) (l : Loc) (name : Str) (hB : ∀ c, ¬ ConstantNext B c)
    (hn : name ∉ labelNames (A ++ B)) (ranges : List DataRange) (h : assemble (A ++ B) = .ret (.ok ranges)) :
    assemble (A ++ .label l name :: B) = .ret (.ok ranges) := by
  refine (C60_unused A B l name hB ?_ ranges).2 ⟨hn, h⟩
  intro l' m fs hm hx
  obtain ⟨L, secs, hc, hl, hs, rfl⟩ := assemble_ok_iff.1 h
  obtain ⟨w, row, _, v, _, hfa, _⟩ := sections_instructions hs l' m fs hm
  have hno : ∀ {n : Nat}, ¬ Denotes L (.identifier name) n := by
    intro n h
    cases h with
    | label h =>
      obtain ⟨p, loc, q, e, _⟩ := labelValue_iff.1 ((hl _ _).1 h)
      exact hn (mem_labelNames.2 ⟨loc, by rw [e]; simp⟩)
  have : ∀ {slots : List Slot} {fs : List Field}, FitsAll L v slots fs → .identifier name ∉ fs := by
    intro slots fs hfa
    induction hfa with
    | nil => simp
    | cons h0 _ ih =>
      intro hx
      rcases List.mem_cons.1 hx with rfl | hx
      · cases h0 with
        | nn hd _ => exact hno hd
        | n hd _ => exact hno hd
        | addr hd => exact hno hd
      · exact ih hx
  exact this hfa hx

example : assemble [org200, db7, here, .label loc "new".toList, jpHere] = .ret (.ok [⟨0x200, [7, 0x12, 0x01]⟩]) :=
  C60_added [org200, db7, here] [jpHere] loc "new".toList (by intro c h; cases h) (by decide) _ rfl

/-- C60: the exclusion is needed: a label put before a constant changes what is assembled. -/
theorem C60_needs_place : ∃ (A B : List Node) (l : Loc) (name : Str) (r r' : List DataRange), r ≠ r' ∧
    name ∉ labelNames (A ++ B) ∧ assemble (A ++ B) = .ret (.ok r) ∧ assemble (A ++ .label l name :: B) = .ret (.ok r') :=
  ⟨[org200, here], [equ5, jpHere], loc, "new".toList, [⟨0x200, [0x10, 0x05]⟩], [⟨0x200, [0x12, 0x00]⟩],
    by decide, by decide, rfl, rfl⟩

example : (∀ c, ¬ ConstantNext [jpHere] c) ∧ "new".toList ∉ labelNames ([org200, db7, here] ++ [jpHere]) ∧
    assemble ([org200, db7, here] ++ [jpHere]) = .ret (.ok [⟨0x200, [7, 0x12, 0x01]⟩]) ∧
    assemble ([org200, db7, here] ++ .label loc "new".toList :: [jpHere]) = .ret (.ok [⟨0x200, [7, 0x12, 0x01]⟩]) := by
  refine ⟨?_, by decide, rfl, rfl⟩
  intro c h
  cases h

/-- C60: the same for a constant: its definition can be added or removed if no instruction uses it, its name is not that
of another label, and it is not between a label and its constant. -/
theorem C60_constant (A B : List Node) (l l' : Loc) (name en : Str) (args : List Literal) (v : U12)
    (hm : DirectiveMeans en args (.equ v)) (hplace : ¬ (EndsWithLabel A ∧ ∃ c, ConstantNext B c))
    (hu : ∀ l' m fs, .instruction l' m fs ∈ A ++ B → .identifier name ∉ fs) (ranges : List DataRange) :
    assemble (A ++ .label l name :: .directive l' en args :: B) = .ret (.ok ranges) ↔
      name ∉ labelNames (A ++ B) ∧ assemble (A ++ B) = .ret (.ok ranges) := by
  constructor
  · intro h
    obtain ⟨h1, h2, L, secs, hl, hs, rfl⟩ := (pair_assemble hm fun h c hc => hplace ⟨h, c, hc⟩).1 h
    obtain ⟨L', hL'⟩ := defineLabels_of_clean h2
    have hl' := (defineLabels_ok hL').2
    refine ⟨h1, assemble_ok_iff.2 ⟨L', secs, h2, hl', sections_agree ?_ hs, rfl⟩⟩
    intro l'' m fs s hmem hx
    have hne : s ≠ name := fun e => hu l'' m fs hmem (e ▸ hx)
    apply Option.ext
    intro u
    rw [hl s u, hl' s u]
    simp [hne]
  · rintro ⟨h1, h2⟩
    have := C35_unused A B l l' name en args v ranges hm hplace h1 h2
    rwa [List.append_assoc] at this

example : assemble [org200, db7, limit, equ5, here, jpHere] = .ret (.ok [⟨0x200, [7, 0x12, 0x01]⟩]) ↔
    "limit".toList ∉ labelNames [org200, db7, here, jpHere] ∧
      assemble [org200, db7, here, jpHere] = .ret (.ok [⟨0x200, [7, 0x12, 0x01]⟩]) :=
  C60_constant [org200, db7] [here, jpHere] loc loc "limit".toList "equ".toList [.numeric 5] 5 equ5_means
    (by rintro ⟨_, c, h⟩; cases h) (by simp [org200, db7, here, jpHere]; rintro _ _ _ _ _ rfl; decide) _

/-! ### C61: joining programs -/

/-- C61: two programs that share no label, the second of which begins with `.org`, can be joined. The output is that of
the first followed by that of the second. -/
theorem C61_joined (p q : List Node) (hq : StartsWithOrg q) (hd : ∀ s, s ∈ labelNames p → s ∉ labelNames q)
    (r1 r2 : List DataRange) (h1 : assemble p = .ret (.ok r1)) (h2 : assemble q = .ret (.ok r2)) :
    assemble (p ++ q) = .ret (.ok (r1 ++ r2)) := assemble_join hq hd h1 h2

example : assemble [db7, limit, equ5, org200, here, jpHere] = .ret (.ok [⟨0, [7]⟩, ⟨0x200, [0x12, 0]⟩]) :=
  C61_joined [db7, limit, equ5] [org200, here, jpHere] ⟨_, _, _, _, _, org200_means, rfl⟩ (by decide) _ _ rfl rfl

/-- C61: the same for two source files, the first of which ends with a newline: their concatenation describes the bytes
of both. -/
theorem C61_text [Target] (file file1 file2 a b : Str) (ha : WholeLines a) (t1 t2 : List Token) (p q : List Node)
    (hs1 : scan file1 a = .ret t1) (hp1 : parse t1 = .ret (.ok p)) (hs2 : scan file2 b = .ret t2)
    (hp2 : parse t2 = .ret (.ok q)) (hq : StartsWithOrg q) (hd : ∀ s, s ∈ labelNames p → s ∉ labelNames q)
    (x y : List (Nat × U8)) (h1 : Describes wordBinary file1 a x) (h2 : Describes wordBinary file2 b y) :
    Describes wordBinary file (a ++ b) (x ++ y) := by
  obtain ⟨t1', p', r1, e1, e2, a1, rfl⟩ := (describes_iff _ _ _).1 h1
  cases hs1.symm.trans e1
  cases hp1.symm.trans e2
  obtain ⟨t2', q', r2, e1, e2, a2, rfl⟩ := (describes_iff _ _ _).1 h2
  cases hs2.symm.trans e1
  cases hp2.symm.trans e2
  have c1 := cut_of_lex ((scan_iff_lex _ _ _).1 hs1) (program_no_error ((parse_ok_iff _ _).1 hp1))
  have c2 := cut_of_lex ((scan_iff_lex _ _ _).1 hs2) (program_no_error ((parse_ok_iff _ _).1 hp2))
  have p1 := (parse_ok_iff _ _).1 (parse_map nowhere hp1)
  have p2 := (parse_ok_iff _ _).1 (parse_map nowhere hp2)
  have hj := assemble_map nowhere (C61_joined p q hq hd r1 r2 a1 a2)
  refine (describes_cut _ _ _).2 ⟨_, _, r1 ++ r2, cut_append c1 c2 (whole_apart ha c1), program_append p1 p2, ?_, ?_⟩
  · rw [List.map_append] at hj
    exact hj
  · simp [image]

example : StartsWithOrg [org200, here, db7] ∧ (∀ s, s ∈ labelNames [limit, equ5] → s ∉ labelNames [org200, here, db7]) ∧
    assemble [db7, limit, equ5] = .ret (.ok [⟨0, [7]⟩]) ∧ assemble [org200, here, jpHere] = .ret (.ok [⟨0x200, [0x12, 0]⟩]) ∧
    assemble ([db7, limit, equ5] ++ [org200, here, jpHere]) = .ret (.ok [⟨0, [7]⟩, ⟨0x200, [0x12, 0]⟩]) :=
  ⟨⟨_, _, _, _, _, org200_means, rfl⟩, by decide, rfl, rfl, rfl⟩

/-! ### C62: moving a section -/

/-- C62: code whose instructions use no address labels of its own can be moved: changing the address of its `.org` moves
its bytes and changes nothing else. -/
theorem C62_moved (l l' : Loc) (s s' : Str) (xs xs' : List Literal) (k k' : U12) (body : List Node)
    (hk : DirectiveMeans s xs (.org k)) (hk' : DirectiveMeans s' xs' (.org k')) (hn : NoOrg body)
    (hf : ∀ b, Reaches body k'.toNat b → b ≤ 0xFFF)
    (hu : ∀ l m fs nm, .instruction l m fs ∈ body → .identifier nm ∈ fs →
      ∃ p loc q v, body = p ++ .label loc nm :: q ∧ ConstantNext q v) (ranges : List DataRange)
    (h : assemble (.directive l s xs :: body) = .ret (.ok ranges)) :
    assemble (.directive l' s' xs' :: body) = .ret (.ok (ranges.map fun r => ⟨k', r.data⟩)) :=
  moved_assemble hk hk' hn hf hu h

/-- C62: the labels of a moved section move by the same distance, and its constants stay. -/
theorem C62_labels (l l' : Loc) (s s' : Str) (xs xs' : List Literal) (k k' : U12) (body : List Node) (L L' : LabelMap)
    (hk : DirectiveMeans s xs (.org k)) (hk' : DirectiveMeans s' xs' (.org k')) (hn : NoOrg body)
    (h : defineLabels (.directive l s xs :: body) = .ok L) (h' : defineLabels (.directive l' s' xs' :: body) = .ok L')
    (nm : Str) (v v' : U12) (hv : L.get nm = some v) (hv' : L'.get nm = some v') :
    (∃ p loc q, body = p ++ .label loc nm :: q ∧ ConstantNext q v ∧ v' = v) ∨
    (∃ p loc q, body = p ++ .label loc nm :: q ∧ (∀ c, ¬ ConstantNext q c) ∧ v.toNat + k'.toNat = v'.toNat + k.toNat) := by
  obtain ⟨hc, hl⟩ := defineLabels_ok h
  exact moved_label hk hk' hn hc ((hl _ _).1 hv) (((defineLabels_ok h').2 _ _).1 hv')

namespace CombineExample

/-- `.org $300` -/
def org300 : Node := .directive loc "org".toList [.numeric 0x300]

/-- `ld v1, limit` -/
def ldLimit : Node := .instruction loc "ld".toList [.generalPurposeRegister 1, .identifier "limit".toList]

def body : List Node := [db7, limit, equ5, here, ldLimit]

example : assemble (org200 :: body) = .ret (.ok [⟨0x200, [7, 0x61, 5]⟩]) ∧
    assemble (org300 :: body) = .ret (.ok [⟨0x300, [7, 0x61, 5]⟩]) ∧
    defineLabels (org200 :: body) = .ok [("here".toList, 0x201), ("limit".toList, 5)] ∧
    defineLabels (org300 :: body) = .ok [("here".toList, 0x301), ("limit".toList, 5)] := ⟨rfl, rfl, rfl, rfl⟩

example : DirectiveMeans "org".toList [.numeric 0x300] (.org 0x300) ∧ NoOrg body ∧
    (∀ b, Reaches body 0x300 b → b ≤ 0xFFF) ∧
    ∀ l m fs nm, .instruction l m fs ∈ body → .identifier nm ∈ fs →
      ∃ p loc q v, body = p ++ .label loc nm :: q ∧ ConstantNext q v := by
  refine ⟨means_iff.1 rfl, ?_, ?_, ?_⟩
  · intro l s xs hm
    simp [body, db7, limit, equ5, here, ldLimit] at hm
    rcases hm with ⟨_, rfl, _⟩ | ⟨_, rfl, _⟩ <;> decide
  · intro b hb
    have : Reaches body 0x300 0x303 := .cons (.db db7_means) (.cons .label (.cons (.equ equ5_means)
      (.cons .label (.cons .instruction .nil))))
    cases reaches_unique hb this
    omega
  · intro l m fs nm hm hx
    simp [body, db7, limit, equ5, here, ldLimit] at hm
    obtain ⟨rfl, rfl, rfl⟩ := hm
    simp at hx
    subst hx
    exact ⟨[db7], loc, [equ5, here, ldLimit], 5, rfl, .intro equ5_means⟩

end CombineExample

end C8S
