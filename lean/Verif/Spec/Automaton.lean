/- Vocabulary on reading with a limited memory. -/

namespace C8S.Spec

/-- Whether a word is accepted can be found out by reading it once from left to right, with a memory that has at most `n` states. -/
def Recognised {α : Type} (n : Nat) (accepted : List α → Prop) : Prop :=
  ∃ (σ : Type) (states : List σ) (step : σ → α → σ) (start : σ) (final : σ → Prop),
    states.length ≤ n ∧ (∀ x, x ∈ states) ∧ ∀ w, accepted w ↔ final (w.foldl step start)

end C8S.Spec
