import Verif.Spec.Running
import Verif.Proofs.Flow
import Verif.Proofs.Tool

/- Lemmas on running programs. -/

namespace C8S

open Spec

theorem mem_contents {mem : Memory} {a : Nat} {b : U8} : (a, b) ∈ contents mem ↔ a < 4096 ∧ mem a = b := by
  unfold contents
  constructor
  · intro h
    obtain ⟨x, hx, e⟩ := List.mem_map.1 h
    cases e
    exact ⟨List.mem_range.1 hx, rfl⟩
  · rintro ⟨h, rfl⟩
    exact List.mem_map.2 ⟨a, List.mem_range.2 h, rfl⟩

theorem image_lt {nodes : List Node} {ranges : List DataRange} (h : assemble nodes = .ret (.ok ranges)) {a : Nat} {b : U8}
    (hm : (a, b) ∈ image ranges) : a < 4096 := by
  obtain ⟨r, hr, hx⟩ := List.mem_flatMap.1 hm
  obtain ⟨h1, h2⟩ := mem_placeAt.1 hx
  have h3 := (ranges_bound h r hr).2
  obtain ⟨h4, _⟩ := List.getElem?_eq_some_iff.1 h2
  unfold rangeEnd at h3
  omega

theorem machineStep_transfer {m m' : List (Nat × U8)} {a : Nat} (h : ∀ op, Fetches m a op → Fetches m' a op) {e : Executed}
    {st : List Nat} {t : Nat × List Nat} (hs : MachineStep m e (a, st) t) : MachineStep m' e (a, st) t := by
  cases hs with
  | next h1 h2 => exact .next (h _ h1) h2
  | skip h1 h2 => exact .skip (h _ h1) h2
  | jump h1 => exact .jump (h _ h1)
  | jumpV0 h1 h2 => exact .jumpV0 (h _ h1) h2
  | call h1 => exact .call (h _ h1)
  | ret h1 => exact .ret (h _ h1)

theorem execution_weaken {D : Type} {sem : Semantics D}
    {move : Memory → Executed → Nat × List Nat → Nat × List Nat → Prop} {ok : Memory → Prop} {es : List Executed}
    {s t : (Nat × List Nat) × D × Memory} (h : Execution sem move ok es s t) :
    Execution sem move (fun _ => True) es s t := by
  induction h with
  | nil => exact .nil
  | cons _ h1 h2 h3 _ ih => exact .cons trivial h1 h2 h3 ih

section
variable {nodes : List Node} {ranges : List DataRange} {start mem : Memory}

theorem fetches_contents (ha : assemble nodes = .ret (.ok ranges)) (hl : Loaded (image ranges) start)
    (hk : Intact nodes start mem) {i a : Nat} (hi : InstructionAt nodes i a) (op : Operation)
    (hf : Fetches (image ranges) a op) : Fetches (contents mem) a op := by
  obtain ⟨b, c, h1, h2, h3, h4⟩ := hf
  obtain ⟨k1, k2⟩ := hk i a hi
  exact ⟨b, c, mem_contents.2 ⟨image_lt ha h1, k1.trans (hl _ h1)⟩, mem_contents.2 ⟨image_lt ha h2, k2.trans (hl _ h2)⟩, h3, h4⟩

theorem contents_fetches (ha : assemble nodes = .ret (.ok ranges)) (hl : Loaded (image ranges) start)
    (hk : Intact nodes start mem) {i a : Nat} (hi : InstructionAt nodes i a) (op : Operation)
    (hf : Fetches (contents mem) a op) : Fetches (image ranges) a op := by
  obtain ⟨L, hL, _⟩ := C33_labels nodes ranges ha
  obtain ⟨loc, m, fs, hi'⟩ := hi.1
  obtain ⟨b, c, h1, h2, _⟩ := bytes_at ha hL hi' hi.2
  obtain ⟨b', c', g1, g2, g3, g4⟩ := hf
  obtain ⟨k1, k2⟩ := hk i a hi
  have e1 : b = b' := (hl _ h1).symm.trans (k1.symm.trans (mem_contents.1 g1).2)
  have e2 : c = c' := (hl _ h2).symm.trans (k2.symm.trans (mem_contents.1 g2).2)
  subst e1 e2
  exact ⟨b, c, h1, h2, g3, g4⟩

theorem run_forward {D : Type} {sem : Semantics D} (ha : assemble nodes = .ret (.ok ranges))
    (hl : Loaded (image ranges) start) {es : List Executed} {s s' : (Nat × List Nat) × D × Memory}
    (hx : Execution sem (byReader nodes) (Intact nodes start) es s s') :
    ∀ t, Placed nodes s.1 t →
      ∃ t', Execution sem byMachine (Intact nodes start) es (t, s.2) (t', s'.2) ∧ Placed nodes s'.1 t' := by
  induction hx with
  | nil => exact fun t hp => ⟨t, .nil, hp⟩
  | cons hk hm ht hd _ ih =>
    intro t hp
    obtain ⟨t1, h1, hp1⟩ := step_forward ha hm hp
    obtain ⟨t', h2, hp2⟩ := ih t1 hp1
    exact ⟨t', .cons hk (machineStep_transfer (fetches_contents ha hl hk hp.1) h1) ht hd h2, hp2⟩

theorem run_backward {D : Type} {sem : Semantics D} (ha : assemble nodes = .ret (.ok ranges))
    (ho : findOverlappingRanges ranges = []) {tables : Nat → Prop} (hc : ClosedFlow nodes tables)
    (hl : Loaded (image ranges) start) {es : List Executed} (hv : Jumping tables es) {t t' : (Nat × List Nat) × D × Memory}
    (hx : Execution sem byMachine (Intact nodes start) es t t') :
    ∀ s, Placed nodes s t.1 →
      ∃ s', Execution sem (byReader nodes) (Intact nodes start) es (s, t.2) (s', t'.2) ∧ Placed nodes s' t'.1 := by
  induction hx with
  | nil => exact fun s hp => ⟨s, .nil, hp⟩
  | cons hk hm ht hd _ ih =>
    intro s hp
    obtain ⟨s1, h1, hp1⟩ := step_backward ha ho hc (machineStep_transfer (contents_fetches ha hl hk hp.1) hm) hp
      (jumping_head hv)
    obtain ⟨s', h2, hp2⟩ := ih (jumping_tail hv) s1 hp1
    exact ⟨s', .cons hk h1 ht hd h2, hp2⟩

theorem intact_refl : Intact nodes start start := fun _ _ _ => ⟨rfl, rfl⟩

theorem sourceStep_spells {e : Executed} {s s' : Nat × List Nat} (h : SourceStep nodes e s s') : Spells nodes s.1 e.1 := by
  cases h <;> assumption

theorem reader_keeps {D : Type} {sem : Semantics D} (hn : StoreFree nodes) (hr : sem.Regular) {es : List Executed}
    {s s' : (Nat × List Nat) × D × Memory} {ok : Memory → Prop} (hx : Execution sem (byReader nodes) ok es s s')
    (hs : s.2.2 = start) : Execution sem (byReader nodes) (Intact nodes start) es s s' ∧ s'.2.2 = start := by
  induction hx with
  | nil => exact ⟨.nil, hs⟩
  | @cons e es p p' d d' mem mem' _ hk hm ht hd _ ih =>
    obtain rfl : mem = start := hs
    obtain ⟨h1, h2⟩ := ih (hr _ _ _ _ _ hd (hn _ _ (sourceStep_spells hm)))
    exact ⟨.cons intact_refl hm ht hd h1, h2⟩

theorem machine_keeps {D : Type} {sem : Semantics D} (ha : assemble nodes = .ret (.ok ranges))
    (ho : findOverlappingRanges ranges = []) {tables : Nat → Prop} (hc : ClosedFlow nodes tables) (hn : StoreFree nodes)
    (hr : sem.Regular) (hl : Loaded (image ranges) start) {es : List Executed} (hv : Jumping tables es)
    {t t' : (Nat × List Nat) × D × Memory} {ok : Memory → Prop}
    (hx : Execution sem byMachine ok es t t') :
    ∀ s, Placed nodes s t.1 → t.2.2 = start → Execution sem byMachine (Intact nodes start) es t t' ∧ t'.2.2 = start := by
  induction hx with
  | nil => exact fun s hp hs => ⟨.nil, hs⟩
  | @cons e es p p' d d' mem mem' _ hk hm ht hd _ ih =>
    intro s hp hs
    obtain rfl : mem = start := hs
    obtain ⟨s1, h1, hp1⟩ := step_backward ha ho hc (machineStep_transfer (contents_fetches ha hl intact_refl hp.1) hm) hp
      (jumping_head hv)
    obtain ⟨h2, h3⟩ := ih (jumping_tail hv) s1 hp1 (hr _ _ _ _ _ hd (hn _ _ (sourceStep_spells h1)))
    exact ⟨.cons intact_refl hm ht hd h2, h3⟩

end

end C8S
