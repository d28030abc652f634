import Verif.Model.Basic

/-!
# What comes out of a loop

A loop is given by one round of it: a function that goes on with a new state, ends the loop with a value, or
fails. Nothing bounds the number of rounds.
-/

namespace Verif.Spec

/-- `n` rounds, if the loop does not end before. -/
def rounds {σ β : Type} (round : σ → Res (σ ⊕ β)) : (n : Nat) → σ → Res (σ ⊕ β)
  | 0, s => .ok (.inl s)
  | n + 1, s =>
    match round s with
    | .ok (.inl s') => rounds round n s'
    | .ok (.inr b) => .ok (.inr b)
    | .error e => .error e

/-- The loop ends with this value or with a panic after some number of rounds; or it does not end: there is a
next round after any number of rounds, or a round does not end. -/
def LoopGives {σ β : Type} (round : σ → Res (σ ⊕ β)) (s : σ) : Res β → Prop
  | .ok b => ∃ n, rounds round n s = .ok (.inr b)
  | .error .panic => ∃ n, rounds round n s = .error .panic
  | .error .hang => (∀ n, ∃ s', rounds round n s = .ok (.inl s')) ∨ ∃ n, rounds round n s = .error .hang

end Verif.Spec
