import Verif.Model.Skeleton
import Verif.Spec.Whole
import Verif.Spec.Steps

/-! When the steps of the tool are correct, each by itself. -/

namespace C8S.Spec

/-- Each step yields what is specified. The last two need to do so only for ranges that are not empty and end before the last
address, and the writer only if no two of them have an address in common. -/
structure Correct (bin : Str → Nat) (s : Steps) : Prop where
  front : ∀ file text r, s.front file text = .ret r ↔ ∃ tokens, Lex bin file [] text tokens ∧ ParsesTo tokens r
  assemble : ∀ nodes r, s.assemble nodes = .ret r ↔ AssemblesTo nodes r
  overlapping : ∀ ranges, (∀ r ∈ ranges, r.data ≠ [] ∧ rangeEnd r < 4096) → s.overlapping ranges = collisions ranges
  write : ∀ ranges, (∀ r ∈ ranges, r.data ≠ [] ∧ rangeEnd r < 4096) → ranges.Pairwise (fun a b => ¬ Shares a b) →
    ∀ text, s.write ranges = .ret text ↔ WrittenAs ranges text

end C8S.Spec
