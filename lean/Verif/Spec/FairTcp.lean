import Verif.Spec.Endless
import Verif.Spec.TcpNode

/-! # Runs of an endpoint on a TCP socket in which nobody is passed over -/

namespace Rsomeip.Spec.TcpNode

open Rt Rt.TcpNode

/-- A run of an endpoint on a TCP socket. -/
abbrev Run := Endless step init

/-- The steps of the endpoint task. -/
def EpStep (x : Action) : Prop := ∃ ok, x = .app (.ep ok)

/-- The operating system takes some bytes of what is written to connection `c`. -/
def WriteStep (c : Nat) (x : Action) : Prop := ∃ n, 0 < n ∧ x = .write c (.wrote n)

/-- The operating system returns bytes that have arrived on connection `c`. -/
def ReadStep (c : Nat) (x : Action) : Prop := ∃ n, x = .read c (.read n)

/-- No task of the endpoint and no call of `send_to` is passed over, and the operating system neither
keeps what has arrived for ever nor refuses to take what is written for ever. (It may report errors,
which end the connection.) -/
structure Fair (r : Run) : Prop where
  ep : r.FairTo EpStep
  lis : ∀ l, r.FairTo (· = .app (.lisCmd l))
  route : ∀ c, r.FairTo (· = .app (.route c))
  cmd : ∀ c, r.FairTo (· = .app (.connCmd c))
  write : ∀ c, r.FairTo (WriteStep c)
  read : ∀ c, r.FairTo (ReadStep c)
  call : ∀ k, r.FairTo (· = .app (.stubStep k))

/-- No handle has a full queue for ever: its user reads from it again and again, or drops it. -/
structure Read (r : Run) : Prop where
  stubs : ∀ k N, ∃ n, N ≤ n ∧ (((r.state n).ep.stubs k).alive = true →
    ((r.state n).ep.ifaces ((r.state n).ep.stubs k).iface).queue.length < 16)
  proxies : ∀ p N, ∃ n, N ≤ n ∧ (((r.state n).ep.proxies p).alive = true →
    ((r.state n).ep.ifaces ((r.state n).ep.proxies p).iface).queue.length < 16)

/-- From some point on the tables of the endpoint keep their buckets. -/
def Settles (r : Run) : Prop :=
  ∃ N, ∀ n, N ≤ n → ¬ r.Does n fun x =>
    (∃ i j, x = .app (.hashId i j)) ∨ ∃ b c, x = .app (.hashAddr b c)

end Rsomeip.Spec.TcpNode
