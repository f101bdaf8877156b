import Verif.Rt.Chan

/-! # What callers see of a channel -/

namespace Rsomeip.Spec.Chan

open Rt.Chan

variable {α : Type}

abbrev Trace (α : Type) := List (Action α × Obs α)

/-- The calls that were made, in order, with their messages. -/
def calls (tr : Trace α) : List (Nat × α) :=
  tr.filterMap fun e => match e.1 with
    | .send k v => some (k, v)
    | _ => none

/-- The calls that returned `Ok`, in this order, with the messages that were put into the channel. -/
def done (tr : Trace α) : List (Nat × α) :=
  tr.filterMap fun e => match e with
    | (.send k _, .sent v) => some (k, v)
    | (.poll k, .sent v) => some (k, v)
    | _ => none

/-- The messages the receiving task has taken, in order. -/
def taken (tr : Trace α) : List α :=
  tr.filterMap fun e => match e.2 with
    | .got v => some v
    | _ => none

/-- The call of `k` waits, with `i` others before it. -/
def Waits (s : State α) (k i : Nat) : Prop :=
  ∃ v l₁ l₂, s.line = l₁ ++ (k, v) :: l₂ ∧ l₁.length = i

/-- Caller `k` is not polled and does not give up, and the receiver stays. -/
def Ignores (k : Nat) (t : Trace α) : Prop :=
  ∀ e ∈ t, e.1 ≠ .poll k ∧ e.1 ≠ .cancel k ∧ e.1 ≠ .close

/-- There is room for the call of `k` that waits with `i` others before it, or the receiver is gone:
when it is polled, it returns. -/
def Due (s : State α) (i : Nat) : Prop := s.rx = false ∨ s.queue.length + i < s.cap

/-- What happens at one point of time. -/
def Next (s : State α) (x : Option (Action α × Obs α)) (s' : State α) : Prop :=
  match x with
  | none => s' = s
  | some x => step s x.1 = some (s', x.2)

/-- What a channel with capacity `cap` does over all time. -/
structure Run (α : Type) (cap : Nat) where
  state : Nat → State α
  act : Nat → Option (Action α × Obs α)
  start : state 0 = init cap
  next : ∀ n, Next (state n) (act n) (state (n + 1))

/-- The call of `k` returns at time `n`, or is given up. -/
def Run.Returns {cap : Nat} (r : Run α cap) (k n : Nat) : Prop :=
  (∃ o, r.act n = some (.poll k, o) ∧ o ≠ .waits) ∨ ∃ o, r.act n = some (.cancel k, o)

/-- Calls that can return are polled at some time, or given up. -/
def Run.Polled {cap : Nat} (r : Run α cap) : Prop :=
  ∀ N k i, Waits (r.state N) k i → Due (r.state N) i →
    ∃ n o, N ≤ n ∧ (r.act n = some (.poll k, o) ∨ r.act n = some (.cancel k, o))

/-- The receiving task goes on: again and again there is room, or the task has ended. -/
def Run.Drained {cap : Nat} (r : Run α cap) : Prop :=
  ∀ N, ∃ n, N ≤ n ∧ ((r.state n).rx = true → (r.state n).queue.length < cap)

end Rsomeip.Spec.Chan
