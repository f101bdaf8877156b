import Verif.Rt.Crash
import Verif.Spec.Once
import Verif.Spec.FairNet

/-! # What a history of programs that crash shows -/

namespace Rsomeip.Spec.Crash

open Rt Rt.Crash

abbrev Trace := List (Action × Node.Obs)

/-- What happened at address `n` in each of the lives of the program there that have ended, and in the
present one. -/
def story (n : Addr) (tr : Trace) : List Spec.Node.Trace × Spec.Node.Trace :=
  tr.foldl (fun l e => match e.1 with
    | .net x => if x.1 = n then (l.1, l.2 ++ [(x.2, e.2)]) else l
    | .crash m => if m = n then (l.1 ++ [l.2], []) else l) ([], [])

/-- What happened at `n` since the program there was started last. -/
def life (n : Addr) (tr : Trace) : Spec.Node.Trace := (story n tr).2

/-- What happened at `n` in each of the lives of the program there, the present one last. -/
def lives (n : Addr) (tr : Trace) : List Spec.Node.Trace := (story n tr).1 ++ [(story n tr).2]

/-- What all lives of the program at `n` show together. -/
def whole {β : Type} (f : Spec.Node.Trace → List β) (n : Addr) (tr : Trace) : List β :=
  (lives n tr).flatMap f

/-- Datagrams from `a` to `b` may be lost, delayed and reordered, but none arrives more often than it
was sent. -/
def NoRepeats (tr : Trace) (a b : Addr) : Prop :=
  ∀ p, (whole (Node.arrivals a) b tr).count p ≤ (whole (Node.outTo b) a tr).count p

/-- A run of several programs that may crash. -/
abbrev Run (own : Addr → Bool) := Endless (step own) Net.init

/-- Such a step of the program at `n`. -/
def At (n : Addr) (P : Node.Action → Prop) (x : Action) : Prop := ∃ y, x = .net (n, y) ∧ P y

open Spec.Node (EpStep SendStep RecvStep AcceptStep)

/-- In the program at `n` no task of the endpoint or the socket, and no call of `send_to`, is passed over. -/
structure Fair {own : Addr → Bool} (r : Run own) (n : Addr) : Prop where
  ep : r.FairTo (At n EpStep)
  lis : ∀ l, r.FairTo (At n (· = .app (.lisCmd l)))
  accept : ∀ l, r.FairTo (At n (AcceptStep l))
  share : ∀ l, r.FairTo (At n (· = .app (.lisShare l)))
  route : ∀ c, r.FairTo (At n (· = .app (.route c)))
  recv : ∀ c, r.FairTo (At n (RecvStep c))
  send : ∀ c, r.FairTo (At n (SendStep c))
  call : ∀ k, r.FairTo (At n (· = .app (.stubStep k)))
  task : r.FairTo (At n (· = .task))

/-- No handle of the program at `n` has a full queue for ever: its user reads from it again and again, or
drops it. -/
structure Read {own : Addr → Bool} (r : Run own) (n : Addr) : Prop where
  stubs : ∀ k N, ∃ t, N ≤ t ∧ ((((r.state t).nodes n).ep.stubs k).alive = true →
    (((r.state t).nodes n).ep.ifaces (((r.state t).nodes n).ep.stubs k).iface).queue.length < 16)
  proxies : ∀ p N, ∃ t, N ≤ t ∧ ((((r.state t).nodes n).ep.proxies p).alive = true →
    (((r.state t).nodes n).ep.ifaces (((r.state t).nodes n).ep.proxies p).iface).queue.length < 16)

/-- From some point on the tables of the endpoint of the program at `n` keep their buckets. -/
def Settles {own : Addr → Bool} (r : Run own) (n : Addr) : Prop :=
  ∃ N, ∀ t, N ≤ t → ¬ r.Does t (At n fun x =>
    (∃ i j, x = .app (.hashId i j)) ∨ ∃ b c, x = .app (.hashAddr b c))

/-- From time `T` on the program at `n` does not crash. -/
def Stays {own : Addr → Bool} (r : Run own) (n : Addr) (T : Nat) : Prop :=
  ∀ t, T ≤ t → ¬ r.Does t (· = .crash n)

/-- From time `T` on the network loses nothing that the program at `a` sends to `n`: every datagram of which
the operating system says that it was sent arrives later, unless the socket of the program at `n` has failed.
It may be delayed, repeated, and overtaken by others. -/
def Carries {own : Addr → Bool} (r : Run own) (a n : Addr) (T : Nat) : Prop :=
  ∀ t c o p, T ≤ t → r.act t = some (.net (a, .app (.sent c true)), o) → (n, p) ∈ o.out →
    ∃ u, t < u ∧ ((∃ o', r.act u = some (.net (n, .datagram a p), o')) ∨
      (.failure, .none) ∈ Spec.Node.socket (life n (r.hist u)))

end Rsomeip.Spec.Crash
