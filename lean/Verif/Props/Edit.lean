import Verif.Proofs.Edit

/- Properties on changing a statement in place and on the first statements of a program: C71 and C72. -/

namespace C8S

open Spec LayoutExample

theorem sameSize_of {X Y : List Node} {k : Nat} (h : SameBytes X Y k) : SameSize X Y :=
  ⟨h.left, h.right, h.left_ne, h.right_ne, k, h.left_size, h.right_size⟩

theorem block_size {L : LabelMap} {X : List Node} {k : Nat} {bytes : List U8} (hk : Reaches X 0 k)
    (h : EmitsBlock L X bytes) : bytes.length = k := by
  have := reaches_unique hk (emitsBlock_reaches h 0)
  omega

/-! ### C71: a change in place -/

namespace EditExample

/-- `.db 9` -/
def db9 : Node := .directive loc "db".toList [.numeric 9]

theorem same : SameBytes [db7] [db9] 1 := by
  refine ⟨?_, ?_, by simp, by simp, .cons (.db db7_means) .nil, .cons (.db (bytes := [9]) (means_iff.1 rfl)) .nil⟩ <;>
  · intro n hn
    rw [List.mem_singleton] at hn
    exact .inr ⟨_, _, _, hn, by decide⟩

end EditExample

open EditExample

/-- C71: replacing instructions and data by others of the same size changes no label. -/
theorem C71_labels (A X Y B : List Node) (k : Nat) (hXY : SameBytes X Y k) (L L' : LabelMap)
    (h : defineLabels (A ++ (X ++ B)) = .ok L) (h' : defineLabels (A ++ (Y ++ B)) = .ok L') (name : Str) :
    L'.get name = L.get name :=
  labelsOf_congr (defineLabels_ok h').2 ((sameSize_of hXY).labelsOf.1 (defineLabels_ok h).2) name

example : LabelMap.get [("here".toList, 0x203)] "here".toList = some 0x203 :=
  C71_labels [org200, jpHere] [db7] [db9] [here] 1 same [("here".toList, 0x203)] _ rfl rfl _

/-- C71: the changed program is accepted exactly if its new instructions are, with the labels of the old program. -/
theorem C71_accepted (A X Y B : List Node) (k : Nat) (hXY : SameBytes X Y k) (ranges : List DataRange) (L : LabelMap)
    (h : assemble (A ++ (X ++ B)) = .ret (.ok ranges)) (hl : defineLabels (A ++ (X ++ B)) = .ok L) :
    (∃ ranges', assemble (A ++ (Y ++ B)) = .ret (.ok ranges')) ↔
      ∀ l m fs, .instruction l m fs ∈ Y → ∃ w, Encodes L m fs w := by
  constructor
  · rintro ⟨ranges', h'⟩ l m fs hm
    obtain ⟨L', secs, hc, hl', hs, rfl⟩ := assemble_ok_iff.1 h'
    have := sections_congr (labelsOf_congr hl' ((sameSize_of hXY).labelsOf.1 (defineLabels_ok hl).2)) hs
    exact sections_instructions this l m fs (by simp [hm])
  · intro hi
    obtain ⟨bytes, hb⟩ := emitsBlock_exists hXY.right hXY.right_size hi
    obtain ⟨L', pre, s, d, _, d', post, hl', _, _, _, h4⟩ := (sameSize_of hXY).edited h
    obtain ⟨secs, hs⟩ : ∃ bytes', EmitsBlock L' Y bytes' := by
      refine emitsBlock_exists hXY.right hXY.right_size fun l m fs hm => ?_
      obtain ⟨w, hw⟩ := hi l m fs hm
      exact ⟨w, encodes_congr (labelsOf_congr (defineLabels_ok hl).2 hl') hw⟩
    exact ⟨_, h4 _ hs⟩

example : ∃ ranges, assemble ([org200, jpHere] ++ ([db9] ++ [here])) = .ret (.ok ranges) :=
  (C71_accepted [org200, jpHere] [db7] [db9] [here] 1 same _ _ rfl rfl).2 (by simp [db9])

/-- C71: the output changes in the bytes of the changed statements only. They are where they were. -/
theorem C71_bytes (A X Y B : List Node) (k : Nat) (hXY : SameBytes X Y k) (ranges ranges' : List DataRange)
    (h : assemble (A ++ (X ++ B)) = .ret (.ok ranges)) (h' : assemble (A ++ (Y ++ B)) = .ret (.ok ranges')) :
    ∃ L a u v bytes bytes', LabelsOf (A ++ (X ++ B)) L ∧ Reaches A 0 a ∧ EmitsBlock L X bytes ∧ EmitsBlock L Y bytes' ∧
      bytes.length = k ∧ bytes'.length = k ∧
      image ranges = u ++ (placeAt a bytes ++ v) ∧ image ranges' = u ++ (placeAt a bytes' ++ v) := by
  obtain ⟨L, pre, s, d, bytes, d', post, hl, hb, rfl, ha, h4⟩ := (sameSize_of hXY).edited h
  obtain ⟨bytes', hb'⟩ : ∃ bytes', EmitsBlock L Y bytes' := by
    refine emitsBlock_exists hXY.right hXY.right_size fun l m fs hm => ?_
    obtain ⟨L', secs, hc, hl', hs, rfl⟩ := assemble_ok_iff.1 h'
    have := sections_congr (labelsOf_congr hl' ((sameSize_of hXY).labelsOf.1 hl)) hs
    exact sections_instructions this l m fs (by simp [hm])
  cases h'.symm.trans (h4 _ hb')
  have hk := block_size hXY.left_size hb
  have hk' := block_size hXY.right_size hb'
  refine ⟨L, _, image pre ++ placeAt s.toNat d, placeAt (s.toNat + d.length + k) d' ++ image post, bytes, bytes', hl, ha, hb, hb', hk, hk', ?_, ?_⟩
  · rw [image_nonEmpty]
    simp [image, placeAt_append, ← hk]
  · rw [image_nonEmpty]
    simp [image, placeAt_append, ← hk']

example : image [⟨0x200, [0x12, 3, 7]⟩] = [(0x200, 0x12), (0x201, 3)] ++ (placeAt 0x202 [7] ++ []) ∧
    image [⟨0x200, [0x12, 3, 9]⟩] = [(0x200, 0x12), (0x201, 3)] ++ (placeAt 0x202 [9] ++ []) ∧
    assemble ([org200, jpHere] ++ ([db7] ++ [here])) = .ret (.ok [⟨0x200, [0x12, 3, 7]⟩]) ∧
    assemble ([org200, jpHere] ++ ([db9] ++ [here])) = .ret (.ok [⟨0x200, [0x12, 3, 9]⟩]) :=
  ⟨by decide, by decide, rfl, rfl⟩

/-- C71: if there are bytes to change, the ranges stay where they are, with their lengths. -/
theorem C71_ranges (A X Y B : List Node) (k : Nat) (hXY : SameBytes X Y k) (hk : k ≠ 0) (ranges ranges' : List DataRange)
    (h : assemble (A ++ (X ++ B)) = .ret (.ok ranges)) (h' : assemble (A ++ (Y ++ B)) = .ret (.ok ranges')) :
    ∃ pre s d bytes bytes' d' post, bytes.length = k ∧ bytes'.length = k ∧ Reaches A 0 (s.toNat + d.length) ∧
      ranges = pre ++ ⟨s, d ++ (bytes ++ d')⟩ :: post ∧ ranges' = pre ++ ⟨s, d ++ (bytes' ++ d')⟩ :: post := by
  obtain ⟨L, pre, s, d, bytes, d', post, hl, hb, rfl, ha, h4⟩ := (sameSize_of hXY).edited h
  obtain ⟨bytes', hb'⟩ : ∃ bytes', EmitsBlock L Y bytes' := by
    refine emitsBlock_exists hXY.right hXY.right_size fun l m fs hm => ?_
    obtain ⟨L', secs, hc, hl', hs, rfl⟩ := assemble_ok_iff.1 h'
    have := sections_congr (labelsOf_congr hl' ((sameSize_of hXY).labelsOf.1 hl)) hs
    exact sections_instructions this l m fs (by simp [hm])
  cases h'.symm.trans (h4 _ hb')
  have hk1 := block_size hXY.left_size hb
  have hk2 := block_size hXY.right_size hb'
  have hn : ∀ b : List U8, b.length = k → nonEmpty (pre ++ ⟨s, d ++ (b ++ d')⟩ :: post) =
      nonEmpty pre ++ ⟨s, d ++ (b ++ d')⟩ :: nonEmpty post := by
    intro b e
    have : d ++ (b ++ d') ≠ [] := by
      intro hz
      simp at hz
      rw [hz.2.1] at e
      exact hk e.symm
    simp [nonEmpty, List.filter_append, this]
  exact ⟨nonEmpty pre, s, d, bytes, bytes', d', nonEmpty post, hk1, hk2, ha, hn _ hk1, hn _ hk2⟩

example : SameBytes [db7] [db9] 1 ∧
    assemble ([org200, jpHere] ++ ([db7] ++ [here])) = .ret (.ok [⟨0x200, [0x12, 3, 7]⟩]) ∧
    assemble ([org200, jpHere] ++ ([db9] ++ [here])) = .ret (.ok [⟨0x200, [0x12, 3, 9]⟩]) ∧
    defineLabels ([org200, jpHere] ++ ([db7] ++ [here])) = .ok [("here".toList, 0x203)] ∧
    defineLabels ([org200, jpHere] ++ ([db9] ++ [here])) = .ok [("here".toList, 0x203)] :=
  ⟨same, rfl, rfl, rfl, rfl⟩

/-- C71: the same for source files: replacing lines by others whose statements have the same size changes only the bytes
of these statements. -/
theorem C71_text [Target] (file a x y b : Str) (A X Y B : List Node) (ha : WholeLines a) (hx : WholeLines x) (hy : WholeLines y)
    (hA : Statements a A) (hX : Statements x X) (hY : Statements y Y) (hB : Statements b B) (k : Nat)
    (hXY : SameBytes X Y k) (bytes bytes' : List (Nat × U8)) (h : Describes wordBinary file (a ++ (x ++ b)) bytes)
    (h' : Describes wordBinary file (a ++ (y ++ b)) bytes') :
    ∃ addr u v old new, Reaches A 0 addr ∧ old.length = k ∧ new.length = k ∧
      bytes = u ++ (placeAt addr old ++ v) ∧ bytes' = u ++ (placeAt addr new ++ v) := by
  have c1 := hasCut_append ha (statements_cut hA) (hasCut_append hx (statements_cut hX) (statements_cut hB))
  have c2 := hasCut_append ha (statements_cut hA) (hasCut_append hy (statements_cut hY) (statements_cut hB))
  obtain ⟨r, h1, rfl⟩ := (hasCut_describes c1 _).1 h
  obtain ⟨r', h2, rfl⟩ := (hasCut_describes c2 _).1 h'
  obtain ⟨_, addr, u, v, old, new, _, e1, _, _, e2, e3, e4, e5⟩ := C71_bytes A X Y B k hXY r r' h1 h2
  exact ⟨addr, u, v, old, new, e1, e2, e3, e4, e5⟩

example : WholeLines "jp z\n".toList ∧ WholeLines ".db 7\n".toList ∧ WholeLines ".db 9\n".toList ∧
    Statements "jp z\n".toList [.instruction ⟨[], 1, 1, 2⟩ "jp".toList [.identifier "z".toList]] ∧
    Statements ".db 7\n".toList [.directive ⟨[], 1, 2, 2⟩ "db".toList [.numeric 7]] ∧
    Statements ".db 9\n".toList [.directive ⟨[], 1, 2, 2⟩ "db".toList [.numeric 9]] ∧
    Statements "z:".toList [.label ⟨[], 1, 1, 1⟩ "z".toList] :=
  ⟨.inr ⟨"jp z".toList, rfl⟩, .inr ⟨".db 7".toList, rfl⟩, .inr ⟨".db 9".toList, rfl⟩, ⟨[], _, rfl, rfl⟩, ⟨[], _, rfl, rfl⟩,
    ⟨[], _, rfl, rfl⟩, ⟨[], _, rfl, rfl⟩⟩

/-- C71: whole lines of a source file are replaced by lines of the same size: the file is still accepted exactly if the new
instructions can be encoded with the labels of the old program. -/
theorem C71_text_accepted [Target] (file a x y b : Str) (A X Y B : List Node) (ha : WholeLines a) (hx : WholeLines x)
    (hy : WholeLines y) (hA : Statements a A) (hX : Statements x X) (hY : Statements y Y) (hB : Statements b B) (k : Nat)
    (hXY : SameBytes X Y k) (bytes : List (Nat × U8)) (h : Describes wordBinary file (a ++ (x ++ b)) bytes) (L : LabelMap)
    (hl : defineLabels (A ++ (X ++ B)) = .ok L) :
    (∃ bytes', Describes wordBinary file (a ++ (y ++ b)) bytes') ↔
      ∀ l m fs, .instruction l m fs ∈ Y → ∃ w, Encodes L m fs w := by
  have c1 := hasCut_append ha (statements_cut hA) (hasCut_append hx (statements_cut hX) (statements_cut hB))
  have c2 := hasCut_append ha (statements_cut hA) (hasCut_append hy (statements_cut hY) (statements_cut hB))
  obtain ⟨r, h1, rfl⟩ := (hasCut_describes c1 _).1 h
  rw [← C71_accepted A X Y B k hXY r L h1 hl]
  constructor
  · rintro ⟨_, h'⟩
    obtain ⟨r', h2, _⟩ := (hasCut_describes c2 _).1 h'
    exact ⟨r', h2⟩
  · rintro ⟨r', h2⟩
    exact ⟨_, (hasCut_describes c2 _).2 ⟨r', h2, rfl⟩⟩

/-- The file above, in which `.db 9` can take the place of `.db 7`. -/
example : Describes wordBinary [] ("jp z\n".toList ++ (".db 7\n".toList ++ "z:".toList)) [(0, 0x10), (1, 3), (2, 7)] ∧
    Describes wordBinary [] ("jp z\n".toList ++ (".db 9\n".toList ++ "z:".toList)) [(0, 0x10), (1, 3), (2, 9)] :=
  have hz : HasCut "z:".toList [.label ⟨[], 1, 1, 1⟩ "z".toList] := statements_cut ⟨[], _, rfl, rfl⟩
  have hj : HasCut "jp z\n".toList [.instruction ⟨[], 1, 1, 2⟩ "jp".toList [.identifier "z".toList]] := statements_cut ⟨[], _, rfl, rfl⟩
  have h7 : HasCut ".db 7\n".toList [.directive ⟨[], 1, 2, 2⟩ "db".toList [.numeric 7]] := statements_cut ⟨[], _, rfl, rfl⟩
  have h9 : HasCut ".db 9\n".toList [.directive ⟨[], 1, 2, 2⟩ "db".toList [.numeric 9]] := statements_cut ⟨[], _, rfl, rfl⟩
  ⟨(hasCut_describes (hasCut_append (.inr ⟨"jp z".toList, rfl⟩) hj (hasCut_append (.inr ⟨".db 7".toList, rfl⟩) h7 hz)) _).2
      ⟨[⟨0, [0x10, 3, 7]⟩], rfl, rfl⟩,
    (hasCut_describes (hasCut_append (.inr ⟨"jp z".toList, rfl⟩) hj (hasCut_append (.inr ⟨".db 9".toList, rfl⟩) h9 hz)) _).2
      ⟨[⟨0, [0x10, 3, 9]⟩], rfl, rfl⟩⟩

/-- C71: the sizes must agree: a longer statement moves the labels behind it, and with them bytes elsewhere. -/
theorem C71_needs_size : ∃ (A X Y B : List Node) (r r' : List DataRange), DataOnly X ∧ DataOnly Y ∧
    assemble (A ++ (X ++ B)) = .ret (.ok r) ∧ assemble (A ++ (Y ++ B)) = .ret (.ok r') ∧
    ∃ p q, p ∈ image r ∧ q ∈ image r' ∧ p.1 = 1 ∧ q.1 = 1 ∧ p ≠ q := by
  refine ⟨[jpHere], [db7], [db7, db7], [here], [⟨0, [0x10, 3, 7]⟩], [⟨0, [0x10, 4, 7, 7]⟩], ?_, ?_, rfl, rfl, (1, 3), (1, 4),
    by decide, by decide, rfl, rfl, by decide⟩
  · intro n hn
    rw [List.mem_singleton] at hn
    exact .inr ⟨_, _, _, hn, by decide⟩
  · intro n hn
    rcases List.mem_cons.1 hn with rfl | hn
    · exact .inr ⟨_, _, _, rfl, by decide⟩
    · rw [List.mem_singleton] at hn
      exact .inr ⟨_, _, _, hn, by decide⟩

/-! ### C72: the first statements of a program -/

/-- C72: if the first statements of an assembled program are assembled on their own, the output is the beginning of that
of the whole program. Cutting a label from its constant is excluded. -/
theorem C72_prefix (p q : List Node) (hn : ¬ (EndsWithLabel p ∧ ∃ c, ConstantNext q c)) (ranges ranges' : List DataRange)
    (h : assemble (p ++ q) = .ret (.ok ranges)) (h' : assemble p = .ret (.ok ranges')) :
    ∃ rest, image ranges = image ranges' ++ rest := by
  obtain ⟨L, hl, hw⟩ := C33_labels _ _ h
  obtain ⟨L', hl', hw'⟩ := C33_labels _ _ h'
  obtain ⟨_, secs, hc, _⟩ := assemble_ok_iff.1 h'
  obtain ⟨a, hr⟩ := reaches_exists (clean_iff.1 hc).1 0
  obtain ⟨w1, w2, e, h1, _⟩ := writes_append hr hw
  refine ⟨w2, ?_⟩
  rw [e]
  congr 1
  obtain ⟨L1, secs, hc1, hl1, hs1, rfl⟩ := assemble_ok_iff.1 h'
  have hu : SameUses p L1 L := by
    intro l m fs s hm hs
    obtain ⟨w, hw⟩ := sections_instructions hs1 l m fs hm
    obtain ⟨v, hv⟩ := encodes_uses hw hs
    rw [hv]
    exact (hl s v).2 (prefix_value hn ((hl1 s v).1 hv))
  have := sections_image (sections_agree hu hs1)
  rw [image_nonEmpty]
  exact writes_unique h1 this

example : ∃ rest, image [⟨0x200, [0x12, 0, 7]⟩] = image [⟨0x200, [0x12, 0]⟩] ++ rest := by
  refine C72_prefix [org200, here, jpHere] [db7] (fun h => ?_) _ _ rfl rfl
  obtain ⟨_, c, hc⟩ := h
  cases hc with | intro hd => cases means_unique hd db7_means

/-- C72: the first statements of an assembled program assemble on their own exactly if they define the labels that their
instructions use. -/
theorem C72_assembles (p q : List Node) (hn : ¬ (EndsWithLabel p ∧ ∃ c, ConstantNext q c)) (ranges : List DataRange)
    (h : assemble (p ++ q) = .ret (.ok ranges)) :
    (∃ ranges', assemble p = .ret (.ok ranges')) ↔
      ∀ l m fs s, .instruction l m fs ∈ p → .identifier s ∈ fs → s ∈ labelNames p := by
  obtain ⟨L, secs, hc, hl, hs, rfl⟩ := assemble_ok_iff.1 h
  constructor
  · rintro ⟨ranges', h'⟩ l m fs s hm hx
    obtain ⟨L1, secs, hc1, hl1, hs1, rfl⟩ := assemble_ok_iff.1 h'
    obtain ⟨w, hw⟩ := sections_instructions hs1 l m fs hm
    obtain ⟨v, hv⟩ := encodes_uses hw hx
    obtain ⟨p1, loc, p2, e, _⟩ := labelValue_iff.1 ((hl1 s v).1 hv)
    exact mem_labelNames.2 ⟨loc, by rw [e]; simp⟩
  · intro hd
    have hcp := clean_prefix hc
    obtain ⟨L', hL'⟩ := defineLabels_of_clean hcp
    have hl' := (defineLabels_ok hL').2
    refine (C34_valid p).2 ⟨L', valid_iff.2 ⟨hcp, hl', fun l m fs hm => ?_⟩⟩
    obtain ⟨w, hw⟩ := sections_instructions hs l m fs (List.mem_append_left _ hm)
    refine ⟨w, encodes_agree (fun s hx => ?_) hw⟩
    obtain ⟨loc, hloc⟩ := mem_labelNames.1 (hd l m fs s hm hx)
    obtain ⟨v, hv⟩ := label_exists hcp hloc
    rw [(hl' s v).2 hv, (hl s v).2 (prefix_value hn hv)]

/-- A program that needs a label defined after it. -/
example : ¬ (EndsWithLabel [jpHere] ∧ ∃ c, ConstantNext [here] c) ∧
    assemble ([jpHere] ++ [here]) = .ret (.ok [⟨0, [0x10, 2]⟩]) ∧ "here".toList ∉ labelNames [jpHere] ∧
    assemble [jpHere] = .ret (.error (.assemblyFailed loc (.unableToResolveLabel "here".toList))) := by
  refine ⟨fun h => ?_, rfl, by decide, rfl⟩
  obtain ⟨_, c, hc⟩ := h
  cases hc

/-- C72: the same for source files: the bytes described by the first lines are the first of those described by the whole
text. -/
theorem C72_text [Target] (file file' a b : Str) (p q : List Node) (ha : WholeLines a) (hp : Statements a p) (hq : Statements b q)
    (hn : ¬ (EndsWithLabel p ∧ ∃ c, ConstantNext q c)) (bytes bytes' : List (Nat × U8))
    (h : Describes wordBinary file (a ++ b) bytes) (h' : Describes wordBinary file' a bytes') :
    ∃ rest, bytes = bytes' ++ rest := by
  obtain ⟨r, h1, rfl⟩ := (hasCut_describes (hasCut_append ha (statements_cut hp) (statements_cut hq)) _).1 h
  obtain ⟨r', h2, rfl⟩ := (hasCut_describes (statements_cut hp) _).1 h'
  exact C72_prefix p q hn r r' h1 h2

example : ¬ (EndsWithLabel [org200, here, jpHere] ∧ ∃ c, ConstantNext [db7] c) ∧
    assemble ([org200, here, jpHere] ++ [db7]) = .ret (.ok [⟨0x200, [0x12, 0, 7]⟩]) ∧
    assemble [org200, here, jpHere] = .ret (.ok [⟨0x200, [0x12, 0]⟩]) ∧
    (∀ l m fs s, .instruction l m fs ∈ [org200, here, jpHere] → .identifier s ∈ fs → s ∈ labelNames [org200, here, jpHere]) := by
  refine ⟨fun h => ?_, rfl, rfl, ?_⟩
  · obtain ⟨_, c, hc⟩ := h
    cases hc with | intro hd => cases means_unique hd db7_means
  · intro l m fs s hm hx
    simp [org200, here, jpHere] at hm
    obtain ⟨_, _, rfl⟩ := hm
    simp at hx
    subst hx
    decide

/-- C72: a source file cut after a line is accepted exactly if its lines define all labels their instructions use. -/
theorem C72_text_accepted [Target] (file file' a b : Str) (p q : List Node) (ha : WholeLines a) (hp : Statements a p)
    (hq : Statements b q) (hn : ¬ (EndsWithLabel p ∧ ∃ c, ConstantNext q c)) (bytes : List (Nat × U8))
    (h : Describes wordBinary file (a ++ b) bytes) :
    (∃ bytes', Describes wordBinary file' a bytes') ↔
      ∀ l m fs s, .instruction l m fs ∈ p → .identifier s ∈ fs → s ∈ labelNames p := by
  obtain ⟨r, h1, rfl⟩ := (hasCut_describes (hasCut_append ha (statements_cut hp) (statements_cut hq)) _).1 h
  rw [← C72_assembles p q hn r h1]
  constructor
  · rintro ⟨_, h'⟩
    obtain ⟨r', h2, _⟩ := (hasCut_describes (statements_cut hp) _).1 h'
    exact ⟨r', h2⟩
  · rintro ⟨r', h2⟩
    exact ⟨_, (hasCut_describes (statements_cut hp) _).2 ⟨r', h2, rfl⟩⟩

example : Describes wordBinary [] ("jp z\n".toList ++ "z:".toList) [(0, 0x10), (1, 2)] ∧
    WholeLines "jp z\n".toList ∧ Statements "jp z\n".toList [.instruction ⟨[], 1, 1, 2⟩ "jp".toList [.identifier "z".toList]] ∧
    Statements "z:".toList [.label ⟨[], 1, 1, 1⟩ "z".toList] ∧
    ¬ EndsWithLabel [.instruction ⟨[], 1, 1, 2⟩ "jp".toList [.identifier "z".toList]] ∧
    "z".toList ∉ labelNames [.instruction ⟨[], 1, 1, 2⟩ "jp".toList [.identifier "z".toList]] :=
  ⟨(hasCut_describes (hasCut_append (.inr ⟨"jp z".toList, rfl⟩)
      (statements_cut (nodes := [.instruction ⟨[], 1, 1, 2⟩ "jp".toList [.identifier "z".toList]]) ⟨[], _, rfl, rfl⟩)
      (statements_cut (nodes := [.label ⟨[], 1, 1, 1⟩ "z".toList]) ⟨[], _, rfl, rfl⟩)) _).2 ⟨[⟨0, [0x10, 2]⟩], rfl, rfl⟩, .inr ⟨"jp z".toList, rfl⟩, ⟨[], _, rfl, rfl⟩,
    ⟨[], _, rfl, rfl⟩, by rintro ⟨p, l, s, h⟩; cases p <;> simp at h, by decide⟩

/-- C72: the exclusion is needed. -/
theorem C72_needs_place : ∃ (p q : List Node) (r r' : List DataRange), assemble (p ++ q) = .ret (.ok r) ∧
    assemble p = .ret (.ok r') ∧ ¬ ∃ rest, image r = image r' ++ rest :=
  ⟨[jpHere, here], [equ5], [⟨0, [0x10, 5]⟩], [⟨0, [0x10, 2]⟩], rfl, rfl, by
    rintro ⟨rest, h⟩
    simp [image, placeAt] at h⟩

end C8S
