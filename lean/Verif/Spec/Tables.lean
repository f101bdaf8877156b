import Verif.Spec.Endpoint
import Mathlib.Data.Finset.Card

/-! # Specification: what an endpoint has to do with -/

namespace Rsomeip.Spec.Ep

open Rt Rt.Ep
open Someip (InterfaceId)

/-- Listener `l` accepted a connection from `a`. -/
def Came (tr : Trace) (l : Nat) (a : Addr) : Prop := ∃ c, (Action.accept l a, Obs.opened c a) ∈ tr

/-- The user asked stub `k` to send something to `a`. -/
def Went (tr : Trace) (k : Nat) (a : Addr) : Prop := ∃ m, (Action.stubSend k a m, Obs.none) ∈ tr

/-- The user asked the endpoint for a stub or a proxy of the interface. -/
def Wanted (tr : Trace) (id : InterfaceId) : Prop :=
  (Action.serve id, Obs.none) ∈ tr ∨ ∃ a, (Action.proxy id a, Obs.none) ∈ tr

/-- The number of entries of a table. -/
def size {κ ν : Type} (m : Map κ ν) : Nat := m.entries.length

/-- `n` is at most the number of things with the property: every finite set of all of them has at least
`n` elements. -/
def AtMost {α : Type} (n : Nat) (P : α → Prop) : Prop := ∀ F : Finset α, (∀ a, P a → a ∈ F) → n ≤ F.card

end Rsomeip.Spec.Ep
