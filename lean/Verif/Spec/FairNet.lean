import Verif.Spec.FairNode
import Verif.Spec.Net
import Verif.Spec.UdpWords

/-! # Runs of several programs on a UDP network in which nobody is passed over -/

namespace Rsomeip.Spec

open Rt

/-- What has happened to a datagram `p` from `a` that keeps its messages from being handed out, as the
history `tr` of the socket shows; the datagram has come and was looked at after what is in `old`, the
history of the socket at an earlier time. -/
inductive Node.Mishap (a : Addr) (p : Bytes) (old tr : Spec.Udp.Trace) : Prop where
  /-- The socket has dropped it: nobody listens, or there is no room for another new connection. -/
  | lost (x : Rt.Udp.Action) (why : Rt.Udp.Loss) (h : (x, .lost a p why) ∈ tr.drop old.length)
  /-- The connection it was for was too slow: others came before it was read. -/
  | missed (x : Rt.Udp.Action) (d k : Nat) (h : (x, .routed a p d) ∈ tr.drop old.length)
      (hk : (.recv d, .lagged k) ∈ tr.drop old.length)
  /-- The connection it was for has ended, or was not accepted before its listener ended. -/
  | discarded (x : Rt.Udp.Action) (d : Nat) (h : (x, .routed a p d) ∈ tr.drop old.length)
      (hd : Spec.Udp.Discarded d tr)

namespace Net

open Rt.Net
open Spec.Node (EpStep SendStep RecvStep AcceptStep)

/-- A run of several programs on a UDP network. -/
abbrev Run (own : Addr → Bool) := Endless (step own) init

/-- Such a step of the program at `n`. -/
def At (n : Addr) (P : Node.Action → Prop) (x : Action) : Prop := x.1 = n ∧ P x.2

/-- In the program at `n` no task of the endpoint or the socket, and no call of `send_to`, is passed over. -/
structure Fair {own : Addr → Bool} (r : Run own) (n : Addr) : Prop where
  ep : r.FairTo (At n EpStep)
  lis : ∀ l, r.FairTo (At n (· = .app (.lisCmd l)))
  accept : ∀ l, r.FairTo (At n (AcceptStep l))
  share : ∀ l, r.FairTo (At n (· = .app (.lisShare l)))
  route : ∀ c, r.FairTo (At n (· = .app (.route c)))
  recv : ∀ c, r.FairTo (At n (RecvStep c))
  send : ∀ c, r.FairTo (At n (SendStep c))
  call : ∀ k, r.FairTo (At n (· = .app (.stubStep k)))
  task : r.FairTo (At n (· = .task))

/-- No handle of the program at `n` has a full queue for ever: its user reads from it again and again, or
drops it. -/
structure Read {own : Addr → Bool} (r : Run own) (n : Addr) : Prop where
  stubs : ∀ k N, ∃ t, N ≤ t ∧ ((((r.state t).nodes n).ep.stubs k).alive = true →
    (((r.state t).nodes n).ep.ifaces (((r.state t).nodes n).ep.stubs k).iface).queue.length < 16)
  proxies : ∀ p N, ∃ t, N ≤ t ∧ ((((r.state t).nodes n).ep.proxies p).alive = true →
    (((r.state t).nodes n).ep.ifaces (((r.state t).nodes n).ep.proxies p).iface).queue.length < 16)

/-- From some point on the tables of the endpoint of the program at `n` keep their buckets. -/
def Settles {own : Addr → Bool} (r : Run own) (n : Addr) : Prop :=
  ∃ N, ∀ t, N ≤ t → ¬ r.Does t (At n fun x =>
    (∃ i j, x = .app (.hashId i j)) ∨ ∃ b c, x = .app (.hashAddr b c))

/-- The network loses nothing that the program at `a` sends to the one at `n`: every datagram of which the
operating system says that it was sent arrives later, unless the socket of the other program has failed. It
may be delayed, repeated, and overtaken by others. -/
def Carries {own : Addr → Bool} (r : Run own) (a n : Addr) : Prop :=
  ∀ t c o p, r.act t = some ((a, .app (.sent c true)), o) → (n, p) ∈ o.out →
    ∃ u, t < u ∧ ((∃ o', r.act u = some ((n, .datagram a p), o')) ∨
      (.failure, .none) ∈ Spec.Node.socket (at_ n (r.hist u)))

end Net

end Rsomeip.Spec
