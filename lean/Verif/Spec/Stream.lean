import Verif.Model.Token

/- What an iterator over tokens yields. -/

namespace C8S.Spec

/-- The answers of the first `n` calls of an iterator's `next`. -/
def pulls {σ : Type} (next : σ → Run (Option Token × σ)) : Nat → σ → Run (List (Option Token))
  | 0, _ => .ret []
  | n + 1, s => do
    let (t, s') ← next s
    let rest ← pulls next n s'
    return t :: rest

/-- The iterator yields these tokens, and from then on nothing, however often it is called. -/
def Yields {σ : Type} (next : σ → Run (Option Token × σ)) (s : σ) (tokens : List Token) : Prop :=
  ∀ n, pulls next n s = .ret ((tokens.map some ++ List.replicate n none).take n)

/-- The iterator, whose `next` may be called only so many times: a further call panics. -/
def limited {σ : Type} (next : σ → Run (Option Token × σ)) : σ × Nat → Run (Option Token × (σ × Nat))
  | (_, 0) => .panic
  | (s, k + 1) => do
    let (t, s') ← next s
    return (t, (s', k))

/-- One for an error that wants an identifier and nothing else: the name of a directive is missing. -/
def nameMissing (names : List Str) : Nat := if names = ["identifier".toList] then 1 else 0

end C8S.Spec
