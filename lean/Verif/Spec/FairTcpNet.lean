import Verif.Spec.FairTcp
import Verif.Spec.TcpNet

/-! # Runs of several programs connected by TCP in which nobody is passed over -/

namespace Rsomeip.Spec.TcpNet

open Rt Rt.TcpNet
open Spec.TcpNode (EpStep WriteStep ReadStep)

/-- A run of several programs that are connected by TCP. -/
abbrev Run (own : Addr → Bool) := Endless (step own) init

/-- Such a step of the program at `n`. -/
def At (n : Addr) (P : TcpNode.Action → Prop) (x : Action) : Prop := x.1 = n ∧ P x.2.1

/-- Bytes arrive on connection `c` of a program. -/
def ArriveStep (c : Nat) (x : TcpNode.Action) : Prop := ∃ b, b ≠ [] ∧ x = .arrive c b

/-- In no program a task or a call of `send_to` is passed over; no operating system keeps what has arrived
or refuses to take what is written for ever; and TCP carries what was written on a connection between two
of the programs to its other end, if not all at once. (Errors that end a connection are possible.) -/
structure Fair {own : Addr → Bool} (r : Run own) : Prop where
  ep : ∀ n, own n = true → r.FairTo (At n EpStep)
  lis : ∀ n, own n = true → ∀ l, r.FairTo (At n (· = .app (.lisCmd l)))
  route : ∀ n, own n = true → ∀ c, r.FairTo (At n (· = .app (.route c)))
  cmd : ∀ n, own n = true → ∀ c, r.FairTo (At n (· = .app (.connCmd c)))
  write : ∀ n, own n = true → ∀ c, r.FairTo (At n (WriteStep c))
  read : ∀ n, own n = true → ∀ c, r.FairTo (At n (ReadStep c))
  call : ∀ n, own n = true → ∀ k, r.FairTo (At n (· = .app (.stubStep k)))
  arrive : ∀ n c, (∃ t, (r.state t).peer n c ≠ none) → r.FairTo (At n (ArriveStep c))

/-- No handle of the program at `n` has a full queue for ever: its user reads from it again and again, or
drops it. -/
structure Read {own : Addr → Bool} (r : Run own) (n : Addr) : Prop where
  stubs : ∀ k N, ∃ t, N ≤ t ∧ ((((r.state t).nodes n).ep.stubs k).alive = true →
    (((r.state t).nodes n).ep.ifaces (((r.state t).nodes n).ep.stubs k).iface).queue.length < 16)
  proxies : ∀ p N, ∃ t, N ≤ t ∧ ((((r.state t).nodes n).ep.proxies p).alive = true →
    (((r.state t).nodes n).ep.ifaces (((r.state t).nodes n).ep.proxies p).iface).queue.length < 16)

/-- From some point on the tables of the endpoint of the program at `n` keep their buckets. -/
def Settles {own : Addr → Bool} (r : Run own) (n : Addr) : Prop :=
  ∃ N, ∀ t, N ≤ t → ¬ r.Does t (At n fun x =>
    (∃ i j, x = .app (.hashId i j)) ∨ ∃ b c, x = .app (.hashAddr b c))

/-- The connections between the programs, which come in pairs of ends: once they belong together they stay
so, and every connection that was accepted from another program has its other end there. -/
structure Coupled {own : Addr → Bool} (r : Run own)
    (pair : Nat → Addr → Nat → Option (Addr × Nat)) : Prop where
  pairs : ∀ t, Pairs (pair t) (r.hist t)
  stay : ∀ t u n c w, t ≤ u → pair t n c = some w → pair u n c = some w
  accepted : ∀ t n l c m, own m = true →
    (.accept l m, .opened c m) ∈ Spec.TcpNode.app (at_ n (r.hist t)) → ∃ d, pair t n c = some (m, d)

end Rsomeip.Spec.TcpNet
