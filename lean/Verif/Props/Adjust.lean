import Verif.Proofs.Adjust
import Verif.Props.Combine

/- Property C121: a constant with another value. -/

namespace C8S

open Spec LayoutExample

namespace AdjustExample

/-- `here: .equ n` -/
def equ (n : Nat) : Node := .directive loc "equ".toList [.numeric n]

/-- `ld v1, here` -/
def ldHere : Node := .instruction loc "ld".toList [.generalPurposeRegister 1, .identifier "here".toList]

def program (n : Nat) : List Node := [org200, jpHere] ++ here :: equ n :: [ldHere, db7]

theorem five : WithConstant (program 5) [org200, jpHere] "here".toList 5 [ldHere, db7] :=
  ⟨_, _, _, _, rfl, means_iff.1 rfl⟩

theorem ninety : WithConstant (program 90) [org200, jpHere] "here".toList 90 [ldHere, db7] :=
  ⟨_, _, _, _, rfl, means_iff.1 rfl⟩

theorem large : WithConstant (program 300) [org200, jpHere] "here".toList 300 [ldHere, db7] :=
  ⟨_, _, _, _, rfl, means_iff.1 rfl⟩

theorem ld_limit : TakesUpTo "ld".toList [.generalPurposeRegister 1, .identifier "here".toList] 255 :=
  ⟨⟨"6xkk".toList, "ld".toList, [.vx, .nn]⟩, .nn, ⟨by decide, by decide, .cons .vx (.cons .nnId .nil)⟩, by decide, rfl⟩

end AdjustExample

open AdjustExample

/-- C121: if a constant of an accepted program is given another value, the program is accepted exactly if the value is within the
limit of every instruction that names the constant. -/
theorem C121_accepted (N N' A B : List Node) (name : Str) (v v' : U12) (ho : WithConstant N A name v B)
    (hn : WithConstant N' A name v' B) (ranges : List DataRange) (h : assemble N = .ret (.ok ranges)) :
    (∃ ranges', assemble N' = .ret (.ok ranges')) ↔ ∀ l m fs limit, .instruction l m fs ∈ A ++ B → .identifier name ∈ fs →
      TakesUpTo m fs limit → v'.toNat ≤ limit := by
  have hB := constant_parts ho h
  obtain ⟨L, secs, hc, hl, hs, rfl⟩ := assemble_ok_iff.1 h
  obtain ⟨hx, hc0⟩ := (constant_clean ho hB).1 hc
  constructor
  · rintro ⟨ranges', h'⟩ l m fs limit hi hf ⟨row, s, hsel, hsl, hlim⟩
    obtain ⟨L', secs', _, hl', hs', rfl⟩ := assemble_ok_iff.1 h'
    obtain ⟨_, hv', _⟩ := constant_same ho hn hB hl hl'
    obtain ⟨w, hw⟩ := sections_instructions hs' l m fs ((constant_instruction hn).2 hi)
    refine Nat.le_of_not_lt fun hlt => ?_
    cases s <;> cases hlim
    · exact not_encodes_and_fails hw (.eightBit hsel hsl hf (.label hv') hlt)
    · exact not_encodes_and_fails hw (.fourBit hsel hsl hf (.label hv') hlt)
    · have := v'.isLt
      omega
  · intro hfit
    have hc' := (constant_clean hn hB).2 ⟨hx, hc0⟩
    obtain ⟨L', hL'⟩ := defineLabels_of_clean hc'
    have hl' := (defineLabels_ok hL').2
    obtain ⟨hv, hv', hsame⟩ := constant_same ho hn hB hl hl'
    obtain ⟨secs', hs'⟩ := sections_exist (labels := L') N' (clean_iff.1 hc').1 (fun l m fs hi => by
      have hi := (constant_instruction hn).1 hi
      obtain ⟨w, hw⟩ := sections_instructions hs l m fs ((constant_instruction ho).2 hi)
      by_cases hf : .identifier name ∈ fs
      · obtain ⟨limit, _, ht, _, _, hw'⟩ := encodes_adjust hw hf
        exact ⟨_, hw' L' v' hv' (hfit l m fs limit hi hf ht)⟩
      · exact ⟨w, encodes_agree (fun s hs1 => hsame s fun e => hf (e ▸ hs1)) hw⟩) 0
    exact ⟨_, assemble_ok_iff.2 ⟨L', secs', hc', hl', hs', rfl⟩⟩

example : assemble (program 5) = .ret (.ok [⟨0x200, [0x10, 0x05, 0x61, 0x05, 7]⟩]) ∧
    assemble (program 90) = .ret (.ok [⟨0x200, [0x10, 0x5A, 0x61, 0x5A, 7]⟩]) ∧
    ¬ ∃ ranges', assemble (program 300) = .ret (.ok ranges') := by
  refine ⟨rfl, rfl, ?_⟩
  rw [C121_accepted _ _ _ _ _ _ _ five large _ rfl]
  intro h
  exact absurd (h loc _ _ 255 (by simp [ldHere]) (by simp) ld_limit) (by decide)

/-- C121: otherwise the first instruction with a lower limit is reported, with the value. -/
theorem C121_reported (N N' A B p q : List Node) (name : Str) (v v' : U12) (ho : WithConstant N A name v B)
    (hn : WithConstant N' A name v' B) (ranges : List DataRange) (h : assemble N = .ret (.ok ranges)) (l : Loc) (m : Str)
    (fs : List Field) (limit : Nat) (e : A ++ B = p ++ .instruction l m fs :: q) (hf : .identifier name ∈ fs)
    (ht : TakesUpTo m fs limit) (hlt : limit < v'.toNat)
    (hp : ∀ l m fs limit, .instruction l m fs ∈ p → .identifier name ∈ fs → TakesUpTo m fs limit → v'.toNat ≤ limit) :
    (limit = 255 ∧ assemble N' = .ret (.error (.assemblyFailed l (.expectingEightBitValue v'.toNat)))) ∨
    (limit = 15 ∧ assemble N' = .ret (.error (.assemblyFailed l (.expectingFourBitValue v'.toNat)))) := by
  have hB := constant_parts ho h
  obtain ⟨L, secs, hc, hl, hs, rfl⟩ := assemble_ok_iff.1 h
  obtain ⟨hx, hc0⟩ := (constant_clean ho hB).1 hc
  have hc' := (constant_clean hn hB).2 ⟨hx, hc0⟩
  obtain ⟨L', hL'⟩ := defineLabels_of_clean hc'
  have hl' := (defineLabels_ok hL').2
  obtain ⟨hv, hv', hsame⟩ := constant_same ho hn hB hl hl'
  obtain ⟨p', q', e', hp'⟩ : ∃ p' q', N' = p' ++ .instruction l m fs :: q' ∧
      ∀ l m fs, .instruction l m fs ∈ p' → .instruction l m fs ∈ p := by
    obtain ⟨l2, l3, en, args, rfl, _⟩ := hn
    rcases split_three (C := []) (by simpa using e) with ⟨q', rfl, rfl⟩ | ⟨_, _, e', _⟩ | ⟨p', rfl, rfl⟩
    · exact ⟨p, q' ++ .label l2 name :: .directive l3 en args :: B, by simp, fun _ _ _ h => h⟩
    · simp at e'
    · exact ⟨A ++ .label l2 name :: .directive l3 en args :: p', q, by simp, fun l m fs hm => by simpa using hm⟩
  have hall : ∀ l m fs, .instruction l m fs ∈ p' → ∃ w, Encodes L' m fs w := by
    intro l m fs hi
    have hi := hp' l m fs hi
    obtain ⟨w, hw⟩ := sections_instructions hs l m fs ((constant_instruction ho).2 (by rw [e]; simp [hi]))
    by_cases hf : .identifier name ∈ fs
    · obtain ⟨limit, _, ht, _, _, hw'⟩ := encodes_adjust hw hf
      exact ⟨_, hw' L' v' hv' (hp l m fs limit hi hf ht)⟩
    · exact ⟨w, encodes_agree (fun s hs1 => hsame s fun e => hf (e ▸ hs1)) hw⟩
  obtain ⟨row, s, hsel, hsl, hlim⟩ := ht
  cases s <;> cases hlim
  · exact .inl ⟨rfl, (C104_error _ _).2 (.inr ⟨L', p', l, m, fs, q', _, hc', hl', e', hall, .eightBit hsel hsl hf (.label hv') hlt, rfl⟩)⟩
  · exact .inr ⟨rfl, (C104_error _ _).2 (.inr ⟨L', p', l, m, fs, q', _, hc', hl', e', hall, .fourBit hsel hsl hf (.label hv') hlt, rfl⟩)⟩
  · have := v'.isLt
    omega

example : assemble (program 300) = .ret (.error (.assemblyFailed loc (.expectingEightBitValue 300))) := rfl

/-- C121: when both are accepted, the bytes are at the same addresses, in the same order. -/
theorem C121_addresses (N N' A B : List Node) (name : Str) (v v' : U12) (ho : WithConstant N A name v B)
    (hn : WithConstant N' A name v' B) (ranges ranges' : List DataRange) (h : assemble N = .ret (.ok ranges))
    (h' : assemble N' = .ret (.ok ranges')) : (image ranges).map Prod.fst = (image ranges').map Prod.fst := by
  obtain ⟨l, l1, en, args, rfl, hm⟩ := ho
  obtain ⟨l', l1', en', args', rfl, hm'⟩ := hn
  have hB := constant_behind h
  obtain ⟨_, _, L, secs, _, hs, rfl⟩ := (pair_assemble hm fun _ => hB).1 h
  obtain ⟨_, _, L', secs', _, hs', rfl⟩ := (pair_assemble hm' fun _ => hB).1 h'
  rw [image_nonEmpty, image_nonEmpty]
  exact writes_addresses (sections_image hs) (sections_image hs')

example : (image [⟨0x200, [0x10, 0x05, 0x61, 0x05, 7]⟩]).map Prod.fst = [0x200, 0x201, 0x202, 0x203, 0x204] := rfl

/-- C121: a statement that does not name the constant puts the same bytes at the same addresses. -/
theorem C121_kept (N N' A B : List Node) (name : Str) (v v' : U12) (ho : WithConstant N A name v B)
    (hn : WithConstant N' A name v' B) (L L' : LabelMap) (h : defineLabels N = .ok L) (h' : defineLabels N' = .ok L') (i x : Nat)
    (b : U8) (hi : ∀ l m fs, N[i]? = some (.instruction l m fs) → .identifier name ∉ fs) :
    Puts L N i x b ↔ Puts L' N' i x b := by
  obtain ⟨hc, hl⟩ := defineLabels_ok h
  obtain ⟨_, hl'⟩ := defineLabels_ok h'
  have hB : ∀ c, ¬ ConstantNext B c := by
    obtain ⟨l, l1, en, args, rfl, hm⟩ := ho
    intro c hcn
    obtain ⟨r, l2, nm, er⟩ := (clean_iff.1 hc).2.1 (A ++ [.label l name, .directive l1 en args]) B c (by simp) hcn
    have := congrArg List.getLast? er
    simp at this
  obtain ⟨hx, _⟩ := (constant_clean ho hB).1 hc
  obtain ⟨_, _, hsame⟩ := constant_same ho hn hB hl hl'
  constructor
  · rintro ⟨pre, n, post, a, bytes, e, rfl, hr, hb, hle, hat⟩
    obtain ⟨pre', post', e', hlen, hr'⟩ := constant_place ho hn e hr hb (List.mem_of_getElem? hat)
    refine ⟨pre', n, post', a, bytes, e', hlen, hr', emits_agree (fun l m fs s hm hf => ?_) hb, hle, hat⟩
    rw [List.mem_singleton] at hm
    refine hsame s fun es => hi l m fs (by rw [e, hm]; simp) (es ▸ hf)
  · rintro ⟨pre', n, post', a, bytes, e', rfl, hr', hb', hle, hat⟩
    obtain ⟨pre, post, e, hlen, hr⟩ := constant_place hn ho e' hr' hb' (List.mem_of_getElem? hat)
    refine ⟨pre, n, post, a, bytes, e, hlen, hr, emits_agree (fun l m fs s hm hf => ?_) hb', hle, hat⟩
    rw [List.mem_singleton] at hm
    refine (hsame s fun es => hi l m fs (by rw [e, hm, ← hlen]; simp) (es ▸ hf)).symm

example : defineLabels (program 5) = .ok [("here".toList, 5)] ∧ defineLabels (program 90) = .ok [("here".toList, 90)] ∧
    Puts [("here".toList, 90)] (program 90) 5 0x204 7 :=
  ⟨rfl, rfl, (C121_kept _ _ _ _ _ _ _ five ninety _ _ rfl rfl 5 0x204 7 (by intro l m fs h; cases h)).1
    ⟨[org200, jpHere, here, equ 5, ldHere], db7, [], 0x204, [7], rfl, rfl,
      .cons (.org (v := 0x200) (means_iff.1 rfl)) (.cons .instruction (.cons .label (.cons (.equ (v := 5) (means_iff.1 rfl)) (.cons .instruction .nil)))),
      .db (means_iff.1 rfl), by decide, rfl⟩⟩

/-- C121: the word of an instruction that names the constant changes by as much as the value, at the same address. -/
theorem C121_word (N N' A B : List Node) (name : Str) (v v' : U12) (ho : WithConstant N A name v B)
    (hn : WithConstant N' A name v' B) (ranges ranges' : List DataRange) (h : assemble N = .ret (.ok ranges))
    (h' : assemble N' = .ret (.ok ranges')) (i : Nat) (l : Loc) (m : Str) (fs : List Field)
    (hi : N[i]? = some (.instruction l m fs)) (hf : .identifier name ∈ fs) :
    ∃ (a : Nat) (hi lo hi' lo' : U8), Reaches (N.take i) 0 a ∧ (a, hi) ∈ image ranges ∧ (a + 1, lo) ∈ image ranges ∧
      (a, hi') ∈ image ranges' ∧ (a + 1, lo') ∈ image ranges' ∧
      hi.toNat * 256 + lo.toNat + v'.toNat = hi'.toNat * 256 + lo'.toNat + v.toNat := by
  have hB := constant_parts ho h
  obtain ⟨L, secs, hc, hl, hs, _⟩ := assemble_ok_iff.1 h
  obtain ⟨L', secs', hc', hl', hs', _⟩ := assemble_ok_iff.1 h'
  obtain ⟨hx, _⟩ := (constant_clean ho hB).1 hc
  obtain ⟨hv, hv', _⟩ := constant_same ho hn hB hl hl'
  have hmem := (constant_instruction ho).1 (List.mem_of_getElem? hi)
  obtain ⟨w, hw⟩ := sections_instructions hs l m fs (List.mem_of_getElem? hi)
  obtain ⟨limit, u, ht, hu, hle, hadj⟩ := encodes_adjust hw hf
  rw [hv] at hu
  cases hu
  have hlim := (C121_accepted N N' A B name v v' ho hn ranges h).1 ⟨_, h'⟩ l m fs limit hmem hf ht
  have hw' := hadj L' v' hv' hlim
  obtain ⟨b1, b2, e1⟩ := encodes_bytes hw
  obtain ⟨c1, c2, e2⟩ := encodes_bytes hw'
  have hcut : N = N.take i ++ .instruction l m fs :: N.drop (i + 1) := by
    obtain ⟨hlt, hget⟩ := List.getElem?_eq_some_iff.1 hi
    rw [← hget, ← List.drop_eq_getElem_cons hlt, List.take_append_drop]
  have hlen : (N.take i).length = i := by
    obtain ⟨hlt, _⟩ := List.getElem?_eq_some_iff.1 hi
    rw [List.length_take]
    omega
  obtain ⟨a, ha⟩ := reaches_exists (nodes := N.take i)
    (fun l s xs hm => (clean_iff.1 hc).1 l s xs (List.mem_of_mem_take hm)) 0
  have em : Emits L (.instruction l m fs) [b1, b2] := .instruction (e1 ▸ hw)
  have em' : Emits L' (.instruction l m fs) [c1, c2] := .instruction (e2 ▸ hw')
  obtain ⟨pre', post', e', hlen', hr'⟩ := constant_place (b := b1) ho hn hcut ha em (by simp)
  rw [hlen] at hlen'
  refine ⟨a, b1, b2, c1, c2, ha, ?_, ?_, ?_, ?_, by omega⟩
  · exact (C91_bytes _ _ L h hl _ _).2 ⟨i, _, _, _, a, _, hcut, hlen, ha, em, Nat.le_refl _, by simp⟩
  · exact (C91_bytes _ _ L h hl _ _).2 ⟨i, _, _, _, a, _, hcut, hlen, ha, em, by omega, by simp⟩
  · exact (C91_bytes _ _ L' h' hl' _ _).2 ⟨i, _, _, _, a, _, e', hlen', hr', em', Nat.le_refl _, by simp⟩
  · exact (C91_bytes _ _ L' h' hl' _ _).2 ⟨i, _, _, _, a, _, e', hlen', hr', em', by omega, by simp⟩

example : (program 5)[4]? = some ldHere ∧ 0x6105 + (90 : U12).toNat = 0x615A + (5 : U12).toNat := ⟨rfl, rfl⟩

/-- C121: the same for source files, in which the lines with the definition of the constant are changed. -/
theorem C121_text [Target] (file a x x' b : Str) (A B X X' : List Node) (ha : WholeLines a) (hx : WholeLines x)
    (hx' : WholeLines x') (hA : Statements a A) (hX : Statements x X) (hX' : Statements x' X') (hB : Statements b B) (name : Str)
    (v v' : U12) (ho : WithConstant X [] name v []) (hn : WithConstant X' [] name v' []) (bytes : List (Nat × U8))
    (h : Describes wordBinary file (a ++ (x ++ b)) bytes) :
    ((∃ bytes', Describes wordBinary file (a ++ (x' ++ b)) bytes') ↔ ∀ l m fs limit, .instruction l m fs ∈ A ++ B →
      .identifier name ∈ fs → TakesUpTo m fs limit → v'.toNat ≤ limit) ∧
    ∀ bytes', Describes wordBinary file (a ++ (x' ++ b)) bytes' → bytes.map Prod.fst = bytes'.map Prod.fst := by
  have c1 := hasCut_append ha (statements_cut hA) (hasCut_append hx (statements_cut hX) (statements_cut hB))
  have c2 := hasCut_append ha (statements_cut hA) (hasCut_append hx' (statements_cut hX') (statements_cut hB))
  have w1 : WithConstant (A ++ (X ++ B)) A name v B := by
    obtain ⟨l, l1, en, args, rfl, hm⟩ := ho
    exact ⟨l, l1, en, args, by simp, hm⟩
  have w2 : WithConstant (A ++ (X' ++ B)) A name v' B := by
    obtain ⟨l, l1, en, args, rfl, hm⟩ := hn
    exact ⟨l, l1, en, args, by simp, hm⟩
  obtain ⟨r, h1, rfl⟩ := (hasCut_describes c1 _).1 h
  refine ⟨?_, ?_⟩
  · rw [← C121_accepted _ _ A B name v v' w1 w2 r h1]
    constructor
    · rintro ⟨bytes', h'⟩
      obtain ⟨r', h2, _⟩ := (hasCut_describes c2 _).1 h'
      exact ⟨r', h2⟩
    · rintro ⟨r', h2⟩
      exact ⟨_, (hasCut_describes c2 _).2 ⟨r', h2, rfl⟩⟩
  · intro bytes' h'
    obtain ⟨r', h2, rfl⟩ := (hasCut_describes c2 _).1 h'
    exact C121_addresses _ _ A B name v v' w1 w2 r r' h1 h2

example : WholeLines "c:\n.equ 5\n".toList ∧
    Statements "c:\n.equ 5\n".toList [.label ⟨[], 1, 1, 1⟩ "c".toList, .directive ⟨[], 2, 2, 3⟩ "equ".toList [.numeric 5]] ∧
    WithConstant [.label ⟨[], 1, 1, 1⟩ "c".toList, .directive ⟨[], 2, 2, 3⟩ "equ".toList [.numeric 5]] [] "c".toList 5 [] :=
  ⟨.inr ⟨"c:\n.equ 5".toList, rfl⟩, ⟨[], _, rfl, rfl⟩, ⟨_, _, _, _, rfl, means_iff.1 rfl⟩⟩

end C8S
