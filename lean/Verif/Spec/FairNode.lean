import Verif.Spec.Endless
import Verif.Spec.Node

/-! # Runs of an endpoint on a UDP socket in which nobody is passed over -/

namespace Rsomeip.Spec.Node

open Rt Rt.Node

/-- A run of an endpoint on a UDP socket. -/
abbrev Run := Endless step init

/-- The steps of the endpoint task. -/
def EpStep (x : Action) : Prop := ∃ ok, x = .app (.ep ok)

/-- The steps of the sending task of connection `c`, with the socket's answers. -/
def SendStep (c : Nat) (x : Action) : Prop := x = .app (.connCmd c) ∨ ∃ ok, x = .app (.sent c ok)

/-- The receiving task of connection `c` gets something from the socket. -/
def RecvStep (c : Nat) (x : Action) : Prop := ∃ p, x = .app (.packet c p)

/-- The task of listener `l` gets a new connection from the socket. -/
def AcceptStep (l : Nat) (x : Action) : Prop := ∃ a, x = .app (.accept l a)

/-- No task of the endpoint or the socket, and no call of `send_to`, is passed over. -/
structure Fair (r : Run) : Prop where
  ep : r.FairTo EpStep
  lis : ∀ l, r.FairTo (· = .app (.lisCmd l))
  accept : ∀ l, r.FairTo (AcceptStep l)
  share : ∀ l, r.FairTo (· = .app (.lisShare l))
  route : ∀ c, r.FairTo (· = .app (.route c))
  recv : ∀ c, r.FairTo (RecvStep c)
  send : ∀ c, r.FairTo (SendStep c)
  call : ∀ k, r.FairTo (· = .app (.stubStep k))
  task : r.FairTo (· = .task)

/-- No handle has a full queue for ever: its user reads from it again and again, or drops it. -/
structure Read (r : Run) : Prop where
  stubs : ∀ k N, ∃ n, N ≤ n ∧ (((r.state n).ep.stubs k).alive = true →
    ((r.state n).ep.ifaces ((r.state n).ep.stubs k).iface).queue.length < 16)
  proxies : ∀ p N, ∃ n, N ≤ n ∧ (((r.state n).ep.proxies p).alive = true →
    ((r.state n).ep.ifaces ((r.state n).ep.proxies p).iface).queue.length < 16)

/-- From some point on the tables of the endpoint keep their buckets. -/
def Settles (r : Run) : Prop :=
  ∃ N, ∀ n, N ≤ n → ¬ r.Does n fun x =>
    (∃ i j, x = .app (.hashId i j)) ∨ ∃ b c, x = .app (.hashAddr b c)

/-- The datagrams that the receiving task has dealt with, in order. -/
def handled (tr : Spec.Udp.Trace) : List (Addr × Bytes) :=
  (Spec.Udp.fates tr).map fun e => (e.1, e.2.1)

end Rsomeip.Spec.Node
