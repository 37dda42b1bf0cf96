import Verif.Proofs.Transfer

/- Property C123: a label that is defined elsewhere or in another way. -/

namespace C8S

open Spec LayoutExample AdjustExample

namespace TransferExample

/-- `.org $200`, `jp here`, `.db 7`, `cls` -/
def rest : List Node := [org200, jpHere, db7, .instruction loc "cls".toList []]

theorem first : Defines ([org200] ++ here :: [jpHere, db7, .instruction loc "cls".toList []]) rest "here".toList 0x200 :=
  .address (A := [org200]) (by rintro c ⟨⟩) (.cons (.org (v := 0x200) (means_iff.1 rfl)) .nil)

theorem last : Defines ([org200, jpHere, db7] ++ here :: [.instruction loc "cls".toList []]) rest "here".toList 0x203 :=
  .address (A := [org200, jpHere, db7]) (by rintro c ⟨⟩) (.cons (.org (v := 0x200) (means_iff.1 rfl)) (.cons .instruction
    (.cons (.db (bytes := [7]) (means_iff.1 rfl)) .nil)))

theorem constant : Defines ([org200, jpHere] ++ here :: equ 0x203 :: [db7, .instruction loc "cls".toList []]) rest "here".toList 0x203 :=
  .constant (A := [org200, jpHere]) (means_iff.1 rfl) (by rintro ⟨⟨p, _, _, e⟩, c, h⟩; cases h with | intro h => cases means_unique (means_iff.1 rfl) h)

end TransferExample

open TransferExample

/-- C123: a definition with the same value in another place, as an address or as a constant, makes no difference, once the first
pass accepts the program. -/
theorem C123_same (N N' M : List Node) (name : Str) (v : U12) (h : Defines N M name v) (h' : Defines N' M name v) (L : LabelMap)
    (hd : defineLabels N = .ok L) : assemble N' = assemble N :=
  defines_assemble h h' (defineLabels_ok hd).1

example : assemble ([org200, jpHere, db7] ++ here :: [.instruction loc "cls".toList []]) = .ret (.ok [⟨0x200, [0x12, 0x03, 7, 0x00, 0xE0]⟩]) ∧
    assemble ([org200, jpHere] ++ here :: equ 0x203 :: [db7, .instruction loc "cls".toList []]) =
      .ret (.ok [⟨0x200, [0x12, 0x03, 7, 0x00, 0xE0]⟩]) :=
  ⟨rfl, C123_same _ _ _ _ _ last constant _ rfl⟩

/-- C123: with another value, the program is accepted exactly if that is within the limit of every instruction that names the label. -/
theorem C123_accepted (N N' M : List Node) (name : Str) (v v' : U12) (ho : Defines N M name v) (hn : Defines N' M name v')
    (ranges : List DataRange) (h : assemble N = .ret (.ok ranges)) :
    (∃ ranges', assemble N' = .ret (.ok ranges')) ↔ ∀ l m fs limit, .instruction l m fs ∈ M → .identifier name ∈ fs →
      TakesUpTo m fs limit → v'.toNat ≤ limit := by
  obtain ⟨_, _, hc, _⟩ := assemble_ok_iff.1 h
  have hc' := (defines_clean hn).2 ((defines_clean ho).1 hc)
  rw [← defines_assemble ho inFront_defines hc] at h
  rw [← defines_assemble hn inFront_defines hc']
  exact C121_accepted _ _ [] M name v v' inFront_constant inFront_constant ranges h

example : assemble ([org200] ++ here :: [jpHere, db7, .instruction loc "cls".toList []]) =
    .ret (.ok [⟨0x200, [0x12, 0x00, 7, 0x00, 0xE0]⟩]) := rfl

/-- C123: otherwise the first instruction with a lower limit is reported, with the value. -/
theorem C123_reported (N N' M p q : List Node) (name : Str) (v v' : U12) (ho : Defines N M name v) (hn : Defines N' M name v')
    (ranges : List DataRange) (h : assemble N = .ret (.ok ranges)) (l : Loc) (m : Str) (fs : List Field) (limit : Nat)
    (e : M = p ++ .instruction l m fs :: q) (hf : .identifier name ∈ fs) (ht : TakesUpTo m fs limit) (hlt : limit < v'.toNat)
    (hp : ∀ l m fs limit, .instruction l m fs ∈ p → .identifier name ∈ fs → TakesUpTo m fs limit → v'.toNat ≤ limit) :
    (limit = 255 ∧ assemble N' = .ret (.error (.assemblyFailed l (.expectingEightBitValue v'.toNat)))) ∨
    (limit = 15 ∧ assemble N' = .ret (.error (.assemblyFailed l (.expectingFourBitValue v'.toNat)))) := by
  obtain ⟨_, _, hc, _⟩ := assemble_ok_iff.1 h
  have hc' := (defines_clean hn).2 ((defines_clean ho).1 hc)
  rw [← defines_assemble ho inFront_defines hc] at h
  rw [← defines_assemble hn inFront_defines hc']
  exact C121_reported _ _ [] M p q name v v' inFront_constant inFront_constant ranges h l m fs limit e hf ht hlt hp

/-- `here:` in front of `ld v1, here`, and behind `.org $200` -/
example : assemble [here, ldHere, org200] = .ret (.ok [⟨0, [0x61, 0x00]⟩]) ∧
    assemble [ldHere, org200, here] = .ret (.error (.assemblyFailed loc (.expectingEightBitValue 0x200))) := by
  refine ⟨rfl, ?_⟩
  have h1 : Defines ([] ++ here :: [ldHere, org200]) ([] ++ [ldHere, org200]) "here".toList 0 := .address (by rintro c ⟨⟩) .nil
  have h2 : Defines ([ldHere, org200] ++ here :: []) ([ldHere, org200] ++ []) "here".toList 0x200 :=
    .address (by rintro c ⟨⟩) (.cons .instruction (.cons (.org (v := 0x200) (means_iff.1 rfl)) .nil))
  rcases C123_reported _ _ _ [] [org200] _ _ _ h1 h2 _ rfl loc _ _ 255 rfl (by simp) ld_limit (by decide) (by simp) with ⟨_, h⟩ | ⟨h, _⟩
  · exact h
  · cases h

/-- C123: when both are accepted, the bytes are at the same addresses, in the same order. -/
theorem C123_addresses (N N' M : List Node) (name : Str) (v v' : U12) (ho : Defines N M name v) (hn : Defines N' M name v')
    (ranges ranges' : List DataRange) (h : assemble N = .ret (.ok ranges)) (h' : assemble N' = .ret (.ok ranges')) :
    (image ranges).map Prod.fst = (image ranges').map Prod.fst := by
  obtain ⟨_, _, hc, _⟩ := assemble_ok_iff.1 h
  obtain ⟨_, _, hc', _⟩ := assemble_ok_iff.1 h'
  rw [← defines_assemble ho inFront_defines hc] at h
  rw [← defines_assemble hn inFront_defines hc'] at h'
  exact C121_addresses _ _ [] M name v v' inFront_constant inFront_constant ranges ranges' h h'

example : (image [⟨0x200, [0x12, 0x00, 7, 0x00, 0xE0]⟩]).map Prod.fst = [0x200, 0x201, 0x202, 0x203, 0x204] := rfl

/-- C123: the output is that of the other statements, of which those that do not name the label have the same bytes at the same
addresses. -/
theorem C123_kept (N N' M : List Node) (name : Str) (v v' : U12) (ho : Defines N M name v) (hn : Defines N' M name v')
    (L L' : LabelMap) (h : defineLabels N = .ok L) (h' : defineLabels N' = .ok L') :
    (∀ ranges, assemble N = .ret (.ok ranges) → ∀ x b, (x, b) ∈ image ranges ↔ ∃ i, Puts L M i x b) ∧
    ∀ i x b, (∀ l m fs, M[i]? = some (.instruction l m fs) → .identifier name ∉ fs) → (Puts L M i x b ↔ Puts L' M i x b) := by
  obtain ⟨hc, hl⟩ := defineLabels_ok h
  obtain ⟨_, hl'⟩ := defineLabels_ok h'
  obtain ⟨hx, _⟩ := (defines_clean ho).1 hc
  have hg := defines_labels ho hx hl
  have hsame : ∀ s, s ≠ name → L.get s = L'.get s := by
    intro s hs
    refine Option.ext fun u => ?_
    rw [hg, defines_labels hn hx hl']
    simp [hs]
  refine ⟨fun ranges ha x b => ?_, fun i x b hi => ?_⟩
  · rw [← defines_assemble ho inFront_defines hc] at ha
    obtain ⟨_, _, L0, secs, hg0, hs, rfl⟩ := (pair_assemble (A := []) (inFront_means v) (by rintro ⟨p, _, _, e⟩; simp at e)).1 ha
    rw [image_nonEmpty]
    refine writes_puts (sections_image (sections_congr (fun s => Option.ext fun u => ?_) hs)) x b
    rw [hg0, hg]
    rfl
  · have go : ∀ {L L' : LabelMap}, (∀ s, s ≠ name → L.get s = L'.get s) → Puts L M i x b → Puts L' M i x b := by
      rintro L L' hsame ⟨pre, n, post, a, bytes, e, rfl, hr, hb, hle, hat⟩
      refine ⟨pre, n, post, a, bytes, e, rfl, hr, emits_agree (fun l m fs s hm hf => ?_) hb, hle, hat⟩
      rw [List.mem_singleton] at hm
      exact (hsame s fun es => hi l m fs (by rw [e, hm]; simp) (es ▸ hf)).symm
    exact ⟨go hsame, go fun s hs => (hsame s hs).symm⟩

example : defineLabels ([org200] ++ here :: [jpHere, db7, .instruction loc "cls".toList []]) = .ok [("here".toList, 0x200)] ∧
    defineLabels ([org200, jpHere, db7] ++ here :: [.instruction loc "cls".toList []]) = .ok [("here".toList, 0x203)] := ⟨rfl, rfl⟩

/-- C123: the word of an instruction that names the label changes by as much as the value, at the same address. -/
theorem C123_word (N N' M p q : List Node) (name : Str) (v v' : U12) (ho : Defines N M name v) (hn : Defines N' M name v')
    (ranges ranges' : List DataRange) (h : assemble N = .ret (.ok ranges)) (h' : assemble N' = .ret (.ok ranges')) (l : Loc)
    (m : Str) (fs : List Field) (e : M = p ++ .instruction l m fs :: q) (hf : .identifier name ∈ fs) :
    ∃ (a : Nat) (hi lo hi' lo' : U8), Reaches p 0 a ∧ (a, hi) ∈ image ranges ∧ (a + 1, lo) ∈ image ranges ∧
      (a, hi') ∈ image ranges' ∧ (a + 1, lo') ∈ image ranges' ∧
      hi.toNat * 256 + lo.toNat + v'.toNat = hi'.toNat * 256 + lo'.toNat + v.toNat := by
  obtain ⟨_, _, hc, _⟩ := assemble_ok_iff.1 h
  obtain ⟨_, _, hc', _⟩ := assemble_ok_iff.1 h'
  rw [← defines_assemble ho inFront_defines hc] at h
  rw [← defines_assemble hn inFront_defines hc'] at h'
  obtain ⟨a, h1, h2, h3, h4, hr, rest⟩ := C121_word _ _ [] M name v v' inFront_constant inFront_constant ranges ranges' h h'
    (p.length + 2) l m fs (by rw [e]; simp [inFront]) hf
  refine ⟨a, h1, h2, h3, h4, ?_, rest⟩
  have : (inFront name v M).take (p.length + 2) = [] ++ (constantPair ⟨[], 0, 0, 0⟩ ⟨[], 0, 0, 0⟩ name "equ".toList [.numeric v.toNat] ++ p) := by
    rw [e]
    simp [inFront]
  rw [this] at hr
  exact (pair_reaches (inFront_means v)).1 hr

example : 0x1200 + (0x203 : U12).toNat = 0x1203 + (0x200 : U12).toNat := rfl

/-- C123: the same for a source file in which the line of a label is moved. -/
theorem C123_text [Target] (file a b c x : Str) (A B C : List Node) (l : Loc) (name : Str) (v v' : U12) (ha : WholeLines a)
    (hb : WholeLines b) (hx : WholeLines x) (hA : Statements a A) (hB : Statements b B) (hC : Statements c C)
    (hX : Statements x [.label l name]) (h1 : ∀ c, ¬ ConstantNext (B ++ C) c) (h2 : ∀ c, ¬ ConstantNext C c)
    (hv : Reaches A 0 v.toNat) (hv' : Reaches (A ++ B) 0 v'.toNat) (bytes : List (Nat × U8))
    (h : Describes wordBinary file (a ++ (x ++ (b ++ c))) bytes) :
    ((∃ bytes', Describes wordBinary file (a ++ (b ++ (x ++ c))) bytes') ↔ ∀ l m fs limit, .instruction l m fs ∈ A ++ (B ++ C) →
      .identifier name ∈ fs → TakesUpTo m fs limit → v'.toNat ≤ limit) ∧
    ∀ bytes', Describes wordBinary file (a ++ (b ++ (x ++ c))) bytes' → bytes.map Prod.fst = bytes'.map Prod.fst := by
  have c1 := hasCut_append ha (statements_cut hA) (hasCut_append hx (statements_cut hX) (hasCut_append hb (statements_cut hB) (statements_cut hC)))
  have c2 := hasCut_append ha (statements_cut hA) (hasCut_append hb (statements_cut hB) (hasCut_append hx (statements_cut hX) (statements_cut hC)))
  have w1 : Defines (A ++ ([.label l name] ++ (B ++ C))) (A ++ (B ++ C)) name v := .address h1 hv
  have w2 : Defines (A ++ (B ++ ([.label l name] ++ C))) (A ++ (B ++ C)) name v' := by
    have := Defines.address (l := l) (name := name) h2 hv'
    simpa using this
  obtain ⟨r, e1, rfl⟩ := (hasCut_describes c1 _).1 h
  refine ⟨?_, ?_⟩
  · rw [← C123_accepted _ _ _ name v v' w1 w2 r e1]
    constructor
    · rintro ⟨bytes', h'⟩
      obtain ⟨r', e2, _⟩ := (hasCut_describes c2 _).1 h'
      exact ⟨r', e2⟩
    · rintro ⟨r', e2⟩
      exact ⟨_, (hasCut_describes c2 _).2 ⟨r', e2, rfl⟩⟩
  · intro bytes' h'
    obtain ⟨r', e2, rfl⟩ := (hasCut_describes c2 _).1 h'
    exact C123_addresses _ _ _ name v v' w1 w2 r r' e1 e2

example : WholeLines "here:\n".toList ∧ Statements "here:\n".toList [.label ⟨[], 1, 1, 4⟩ "here".toList] ∧
    WholeLines "cls\n".toList ∧ Statements "cls\n".toList [.instruction ⟨[], 1, 1, 3⟩ "cls".toList []] :=
  ⟨.inr ⟨"here:".toList, rfl⟩, ⟨[], _, rfl, rfl⟩, .inr ⟨"cls".toList, rfl⟩, ⟨[], _, rfl, rfl⟩⟩

end C8S
