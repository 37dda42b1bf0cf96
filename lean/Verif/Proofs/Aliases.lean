import Verif.Spec.Aliases
import Verif.Proofs.Listing
import Verif.Proofs.Words

/- Lemmas on instructions with the same word. -/

namespace C8S

open Spec Opcode

theorem denotes_unique {labels : LabelMap} {f : Field} {n n' : Nat} (h : Denotes labels f n) (h' : Denotes labels f n') :
    n = n' := by
  cases h with
  | literal v => cases h'; rfl
  | label h =>
    cases h' with
    | label h' =>
      rw [h] at h'
      cases h'
      rfl

theorem fits_same {labels labels' : LabelMap} {v : Vars} {s : Slot} {f f' : Field} (h : Fits labels v s f)
    (h' : Fits labels' v s f') : SameOperand labels labels' f f' := by
  cases h with
  | @vx r hr hl =>
    cases h' with
    | @vx r' hr' hl' =>
      have : r = r' := BitVec.eq_of_toNat_eq (by omega)
      subst this
      exact .register (by simp) (by simp)
  | @vy r hr hl =>
    cases h' with
    | @vy r' hr' hl' =>
      have : r = r' := BitVec.eq_of_toNat_eq (by omega)
      subst this
      exact .register (by simp) (by simp)
  | nn h hl => cases h' with | nn h' hl' => exact .value h h'
  | n h hl => cases h' with | n h' hl' => exact .value h h'
  | addr h => cases h' with | addr h' => exact .value h h'
  | v0 => cases h'; exact .register (by simp) (by simp)
  | i => cases h'; exact .register (by simp) (by simp)
  | indI => cases h'; exact .register (by simp) (by simp)
  | dt => cases h'; exact .register (by simp) (by simp)
  | st => cases h'; exact .register (by simp) (by simp)
  | k => cases h'; exact .register (by simp) (by simp)
  | f => cases h'; exact .register (by simp) (by simp)
  | b => cases h'; exact .register (by simp) (by simp)

theorem fitsAll_same {labels labels' : LabelMap} {v : Vars} {ss : List Slot} {fs fs' : List Field}
    (h : FitsAll labels v ss fs) (h' : FitsAll labels' v ss fs') : SameOperands labels labels' fs fs' := by
  induction h generalizing fs' with
  | nil => cases h'; exact .nil
  | cons h _ ih => cases h' with | cons h1 h2 => exact .cons (fits_same h h1) (ih h2)

/-- The opcode of an instruction with a word. -/
theorem encodes_op {labels : LabelMap} {m : Str} {fs : List Field} {w : U16} (h : Encodes labels m fs w.toNat) :
    ∃ op : Opcode, op.asInstruction = .ret w ∧ SameWord m op.row.mnemonic ∧ FitsAll labels op.vars op.row.slots fs := by
  obtain ⟨op, hop, hw⟩ := encodes_iff.2 h
  obtain ⟨hm, hfit, _⟩ := rawMatch_sound (from_ok_iff.1 hop)
  have hwf : op.WellFormed := by
    refine Classical.byContradiction fun hn => ?_
    rw [asInstruction_panic hn] at hw
    cases hw
  refine ⟨op, hw, ?_, hfit hwf⟩
  have hr : op.row ∈ table := row_mem op
  have h1 : toLowercase m = toLowercase op.row.mnemonic := by rw [row_lower _ hr]; exact hm
  exact (toLowercase_eq_iff _ _).1 h1

theorem encodes_same {labels labels' : LabelMap} {m m' : Str} {fs fs' : List Field} {w : U16}
    (h : Encodes labels m fs w.toNat) (h' : Encodes labels' m' fs' w.toNat) :
    SameWord m m' ∧ SameOperands labels labels' fs fs' := by
  obtain ⟨op, hw, hm, hf⟩ := encodes_op h
  obtain ⟨op', hw', hm', hf'⟩ := encodes_op h'
  obtain rfl := C26_encode_injective op op' w hw hw'
  exact ⟨hm.trans hm'.symm, fitsAll_same hf hf'⟩

theorem fits_transfer {labels labels' : LabelMap} {v : Vars} {s : Slot} {f f' : Field} (h : Fits labels v s f)
    (hs : SameOperand labels labels' f f') : Fits labels' v s f' := by
  cases hs with
  | value d d' =>
    cases h with
    | nn h hl => rw [denotes_unique d h] at d'; exact .nn d' hl
    | n h hl => rw [denotes_unique d h] at d'; exact .n d' hl
    | addr h => rw [denotes_unique d h] at d'; exact .addr d'
    | _ => cases d
  | register h1 h2 =>
    have hno : ∀ n, ¬ Denotes labels f n := by
      intro n hd
      cases hd with
      | literal v => exact h1 _ rfl
      | label _ => exact h2 _ rfl
    cases h with
    | nn h hl => exact (hno _ h).elim
    | n h hl => exact (hno _ h).elim
    | addr h => exact (hno _ h).elim
    | vx a b => exact .vx a b
    | vy a b => exact .vy a b
    | v0 => exact .v0
    | i => exact .i
    | indI => exact .indI
    | dt => exact .dt
    | st => exact .st
    | k => exact .k
    | f => exact .f
    | b => exact .b

theorem fitsAll_transfer {labels labels' : LabelMap} {v : Vars} {ss : List Slot} {fs fs' : List Field}
    (h : FitsAll labels v ss fs) (hs : SameOperands labels labels' fs fs') : FitsAll labels' v ss fs' := by
  induction h generalizing fs' with
  | nil => cases hs; exact .nil
  | cons h _ ih => cases hs with | cons h1 h2 => exact .cons (fits_transfer h h1) (ih h2)

theorem encodes_transfer {labels labels' : LabelMap} {m m' : Str} {fs fs' : List Field} {w : Nat}
    (h : Encodes labels m fs w) (hm : SameWord m m') (hs : SameOperands labels labels' fs fs') :
    Encodes labels' m' fs' w := by
  obtain ⟨row, hr, v, h1, h2, h3, h4⟩ := h
  exact ⟨row, hr, v, hm.symm.trans h1, fitsAll_transfer h2 hs, h3, h4⟩

/-- The bytes of instructions. -/
inductive CodeBytes (labels : LabelMap) : List (Str × List Field) → List U8 → Prop where
  | nil : CodeBytes labels [] []
  | cons {m : Str} {fs : List Field} {hi lo : U8} {is : List (Str × List Field)} {bs : List U8} :
    Encodes labels m fs (hi.toNat * 256 + lo.toNat) → CodeBytes labels is bs →
    CodeBytes labels ((m, fs) :: is) (hi :: lo :: bs)

theorem writes_code {labels : LabelMap} {ns : List Node} {a : Nat} {ws : List (Nat × U8)} (h : Writes labels ns a ws)
    (hc : CodeOnly ns) : ∃ bs, ws = placeAt a bs ∧ CodeBytes labels (instructionsOf ns) bs := by
  induction h with
  | nil => exact ⟨[], rfl, .nil⟩
  | @org loc name args v a ns ws hd _ _ =>
    obtain ⟨u, hu⟩ := hc loc name args List.mem_cons_self
    cases means_unique hd hu
  | @emit n bytes a ns ws he _ ih =>
    obtain ⟨bs, rfl, hb⟩ := ih fun l m s hm => hc l m s (List.mem_cons_of_mem _ hm)
    refine ⟨bytes ++ bs, (placeAt_append a bytes bs).symm, ?_⟩
    cases he with
    | @db loc name args bytes hd =>
      obtain ⟨u, hu⟩ := hc loc name args List.mem_cons_self
      cases means_unique hd hu
    | equ hd => exact hb
    | label => exact hb
    | instruction he => exact .cons he hb

theorem codeBytes_same {labels labels' : LabelMap} {is is' : List (Str × List Field)} {bs : List U8}
    (h : CodeBytes labels is bs) (h' : CodeBytes labels' is' bs) : SameCode labels labels' is is' := by
  induction h generalizing is' with
  | nil => cases h'; exact .nil
  | @cons m fs hi lo is bs he _ ih =>
    cases h' with
    | @cons m' fs' _ _ is' _ he' hb' =>
      have e : (BitVec.ofNat 16 (hi.toNat * 256 + lo.toNat)).toNat = hi.toNat * 256 + lo.toNat := by
        have h1 := hi.isLt
        have h2 := lo.isLt
        rw [BitVec.toNat_ofNat, Nat.mod_eq_of_lt (by omega)]
      rw [← e] at he he'
      obtain ⟨hm, hs⟩ := encodes_same he he'
      exact .cons hm hs (ih hb')

theorem codeBytes_transfer {labels labels' : LabelMap} {is is' : List (Str × List Field)} {bs : List U8}
    (h : CodeBytes labels is bs) (hs : SameCode labels labels' is is') : CodeBytes labels' is' bs := by
  induction h generalizing is' with
  | nil => cases hs; exact .nil
  | cons he _ ih => cases hs with | cons hm hf hr => exact .cons (encodes_transfer he hm hf) (ih hr)

theorem codeBytes_unique {labels : LabelMap} {is : List (Str × List Field)} {bs bs' : List U8}
    (h : CodeBytes labels is bs) (h' : CodeBytes labels is bs') : bs = bs' := by
  induction h generalizing bs' with
  | nil => cases h'; rfl
  | @cons m fs hi lo is bs he _ ih =>
    cases h' with
    | @cons _ _ hi' lo' _ bs' he' hb' =>
      have e := encodes_unique he he'
      have h1 := lo.isLt
      have h2 := lo'.isLt
      rw [show hi = hi' from BitVec.eq_of_toNat_eq (by omega), show lo = lo' from BitVec.eq_of_toNat_eq (by omega), ih hb']

end C8S
