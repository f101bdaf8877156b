import Verif.Rt.Exec

/-! # Runs without end

A run is what a system does over all time: a sequence of steps that goes on for ever. At some points
nothing may happen; from some point on nothing happens if everything has come to rest. `Spec/Fair` says
the same for endpoints. -/

namespace Rsomeip.Spec

variable {σ α ω : Type} {step : σ → α → Option (σ × ω)} {s₀ : σ}

/-- A run of a system that starts in `s₀`. -/
structure Endless (step : σ → α → Option (σ × ω)) (s₀ : σ) where
  state : Nat → σ
  act : Nat → Option (α × ω)
  start : state 0 = s₀
  next : ∀ n, match act n with
    | none => state (n + 1) = state n
    | some x => step (state n) x.1 = some (state (n + 1), x.2)

namespace Endless

/-- What has happened before time `n`. -/
def hist (r : Endless step s₀) (n : Nat) : List (α × ω) := (List.range n).filterMap r.act

/-- One of some actions is possible at time `n`. -/
def Can (r : Endless step s₀) (n : Nat) (P : α → Prop) : Prop :=
  ∃ a o s', P a ∧ step (r.state n) a = some (s', o)

/-- One of some actions happens at time `n`. -/
def Does (r : Endless step s₀) (n : Nat) (P : α → Prop) : Prop := ∃ a o, r.act n = some (a, o) ∧ P a

/-- Whoever makes these steps is not passed over: if they are possible again and again, then they are
made again and again. -/
def FairTo (r : Endless step s₀) (P : α → Prop) : Prop :=
  (∀ N, ∃ n, N ≤ n ∧ r.Can n P) → ∀ N, ∃ n, N ≤ n ∧ r.Does n P

end Endless

end Rsomeip.Spec
