import Verif.Spec.Skeleton
import Verif.Props.Steps
import Verif.Proofs.Whole

/-! Lemmas for C129. -/

namespace C8S

open Spec

/-- What yields the same values yields the same. -/
theorem run_ext {α : Type} {a b : Run α} (h : ∀ r, a = .ret r ↔ b = .ret r) : a = b := by
  cases b with
  | ret r => exact (h r).2 rfl
  | panic =>
    cases a with
    | panic => rfl
    | ret r => exact ((h r).1 rfl).symm

/-- What the scanner and the parser yield together. -/
theorem front_iff [Target] (file text : Str) (r : Except ParseError (List Node)) :
    (scan file text >>= parse) = .ret r ↔ ∃ tokens, Lex wordBinary file [] text tokens ∧ ParsesTo tokens r := by
  obtain ⟨tokens, h, hl⟩ := scan_lex file text
  rw [h]
  constructor
  · intro hp
    exact ⟨tokens, hl, (C127_parse _ _).1 hp⟩
  · rintro ⟨tokens', hl', hp⟩
    obtain rfl := lex_unique hl hl'
    exact (C127_parse _ _).2 hp

theorem collisions_nonEmpty {ranges : List DataRange} (h : ∀ r ∈ ranges, r.data ≠ [] ∧ rangeEnd r < 4096) :
    collisions ranges = findOverlappingRanges ranges := by
  have e : nonEmpty ranges = ranges := by
    refine List.filter_eq_self.2 fun r hr => ?_
    exact decide_eq_true (h r hr).1
  rw [collisions_eq fun r hr => (h r (e ▸ hr)).2, e]

theorem pairwise_of_collisions {ranges : List DataRange} (h : ∀ r ∈ ranges, r.data ≠ [] ∧ rangeEnd r < 4096)
    (hc : findOverlappingRanges ranges = []) : ranges.Pairwise fun a b => ¬ Shares a b := by
  rw [findOverlapping_eq_pairs, pairsWhere_eq_nil] at hc
  refine hc.imp_of_mem fun {a b} ha hb hi hs => ?_
  rw [(intersects_iff_of_lt (h a ha).2 (h b hb).2).2 hs] at hi
  cases hi

/-- A tool made of correct steps is this one if its first step is for the text it reads. -/
theorem steps_main [Target] {bin : Str → Nat} (s : Steps) (h : Correct bin s) (getopts : Getopts) (env : Env) (args : List Str)
    (hf : ∀ program rest m input text, args = program :: rest → getopts.parse rest = .ok m → m.help = false →
      m.version = false → m.free = [input] → env.readInput input = .ok text →
      s.front input text = (scan input text >>= parse)) : s.main getopts env args = main getopts env args := by
  have ha : s.assemble = assemble := funext fun nodes =>
    run_ext fun r => (h.assemble nodes r).trans (C127_assemble nodes r).symm
  have ht : ∀ program input output text, s.front input text = (scan input text >>= parse) →
      s.assembleText env program input output text = assembleText env program input output text := by
    intro program input output text hf
    unfold Steps.assembleText assembleText
    rw [hf, ha]
    cases hs : scan input text with
    | panic => rfl
    | ret tokens =>
      simp only [bind, Run.bind]
      cases hp : parse tokens with
      | panic => rfl
      | ret r =>
        cases r with
        | error e => rfl
        | ok nodes =>
          simp only
          cases hn : assemble nodes with
          | panic => rfl
          | ret r =>
            cases r with
            | error e => rfl
            | ok ranges =>
              have hb : ∀ r ∈ ranges, r.data ≠ [] ∧ rangeEnd r < 4096 := fun r hr => by
                have := ranges_bound hn r hr
                exact ⟨this.1, by omega⟩
              have ho := (h.overlapping ranges hb).trans (collisions_nonEmpty hb)
              simp only [ho]
              split
              · rfl
              · rename_i hl
                have hp := pairwise_of_collisions hb (List.length_eq_zero_iff.1 (by omega))
                have hw : s.write ranges = ihexRepresentationOfDataRanges ranges := run_ext fun r =>
                  (h.write ranges hb hp r).trans (((C127_write ranges fun r hr => (hb r hr).2).1 hp r).symm)
                rw [hw]
                cases ihexRepresentationOfDataRanges ranges <;> rfl
  have hfile : ∀ program input output,
      (∀ text, env.readInput input = .ok text → s.front input text = (scan input text >>= parse)) →
      s.assembleFile env program input output = assembleFile env program input output := by
    intro program input output hf
    unfold Steps.assembleFile assembleFile
    cases env.openInput input with
    | error _ => rfl
    | ok _ =>
      cases hr : env.readInput input with
      | error _ => rfl
      | ok text => simp only [ht _ _ _ _ (hf text hr)]
  cases args with
  | nil => rfl
  | cons program rest =>
    unfold Steps.main main
    simp only
    cases hm : getopts.parse rest with
    | error _ => rfl
    | ok m =>
      simp only
      split
      · rfl
      split
      · rfl
      rename_i hh hv
      rcases hi : m.free with _ | ⟨input, _ | ⟨_, _⟩⟩
      · rfl
      · exact hfile _ _ _ fun text ht => hf _ _ _ _ _ rfl hm (Bool.eq_false_iff.2 hh) (Bool.eq_false_iff.2 hv) hi ht
      · rfl

end C8S
