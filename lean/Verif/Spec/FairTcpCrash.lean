import Verif.Spec.FairTcpNet
import Verif.Spec.TcpCrash

/-! # Runs of programs connected by TCP that crash, in which nobody is passed over -/

namespace Rsomeip.Spec.TcpCrash

open Rt Rt.TcpCrash
open Spec.TcpNode (EpStep WriteStep ReadStep app arrived written)
open Spec.TcpNet (ArriveStep)
open Spec.Ep (Shown)

/-- What happened at `n` in each of the lives of the program there that have ended. -/
def former (n : Addr) (tr : Trace) : List Spec.TcpNode.Trace := (story n tr).1

/-- A run of several programs that are connected by TCP and may crash. -/
abbrev Run (own : Addr → Bool) := Endless (step own) init

/-- Such a step of the program at `n`. -/
def At (n : Addr) (P : TcpNode.Action → Prop) (x : Action) : Prop := ∃ y d, x = .net n y d ∧ P y

/-- In the program at `n` no task and no call of `send_to` is passed over, and the operating system does not
keep what has arrived or refuse to take what is written for ever. (Errors that end a connection are
possible.) -/
structure Fair {own : Addr → Bool} (r : Run own) (n : Addr) : Prop where
  ep : r.FairTo (At n EpStep)
  lis : ∀ l, r.FairTo (At n (· = .app (.lisCmd l)))
  route : ∀ c, r.FairTo (At n (· = .app (.route c)))
  cmd : ∀ c, r.FairTo (At n (· = .app (.connCmd c)))
  write : ∀ c, r.FairTo (At n (WriteStep c))
  read : ∀ c, r.FairTo (At n (ReadStep c))
  call : ∀ k, r.FairTo (At n (· = .app (.stubStep k)))

/-- From time `T` on TCP carries what was written on a connection between the program at `n` and another one
to the end at `n`, if not all at once. -/
def Carries {own : Addr → Bool} (r : Run own) (n : Addr) (T : Nat) : Prop :=
  ∀ c, (∃ t, T ≤ t ∧ (r.state t).peer n ((r.state t).base n + c) ≠ none) → r.FairTo (At n (ArriveStep c))

/-- No handle of the program at `n` has a full queue for ever: its user reads from it again and again, or
drops it. -/
structure Read {own : Addr → Bool} (r : Run own) (n : Addr) : Prop where
  stubs : ∀ k N, ∃ t, N ≤ t ∧ ((((r.state t).nodes n).ep.stubs k).alive = true →
    (((r.state t).nodes n).ep.ifaces (((r.state t).nodes n).ep.stubs k).iface).queue.length < 16)
  proxies : ∀ p N, ∃ t, N ≤ t ∧ ((((r.state t).nodes n).ep.proxies p).alive = true →
    (((r.state t).nodes n).ep.ifaces (((r.state t).nodes n).ep.proxies p).iface).queue.length < 16)

/-- From some point on the tables of the endpoint of the program at `n` keep their buckets. -/
def Settles {own : Addr → Bool} (r : Run own) (n : Addr) : Prop :=
  ∃ N, ∀ t, N ≤ t → ¬ r.Does t (At n fun x =>
    (∃ i j, x = .app (.hashId i j)) ∨ ∃ b c, x = .app (.hashAddr b c))

/-- From time `T` on the program at `n` does not crash. -/
def Stays {own : Addr → Bool} (r : Run own) (n : Addr) (T : Nat) : Prop :=
  ∀ t, T ≤ t → ¬ r.Does t (· = .crash n)

/-- Connection `c` of the program at `n` is to a connection in a life of the program at `a` that has ended. -/
def Stale (a n : Addr) (c : Nat) (tr : Trace) : Prop :=
  ∃ L ∈ former a tr, ∃ d, Shown (app L) (.opened d n) ∧ arrived c (life n tr) <+: written d L

/-- The connections between two programs that do not crash from time `T` on: `pair t c d` says that connection
`c` of the one at `n` and connection `d` of the one at `a` are the two ends of one at time `t`. They are known
to the programs as connections to each other and stay what they are, and each has one other end. A connection
that was accepted at one of them from the other has its other end in the present life of that program, or in one
that has ended. -/
structure Coupled {own : Addr → Bool} (r : Run own) (a n : Addr) (T : Nat) (pair : Nat → Nat → Nat → Prop) :
    Prop where
  opened : ∀ t c d, T ≤ t → pair t c d →
    Shown (app (life n (r.hist t))) (.opened c a) ∧ Shown (app (life a (r.hist t))) (.opened d n)
  stay : ∀ t u c d, T ≤ t → t ≤ u → pair t c d → pair u c d
  one : ∀ t c d c' d', T ≤ t → pair t c d → pair t c' d' → (c = c' ↔ d = d')
  here : ∀ t l c, T ≤ t → (.accept l a, .opened c a) ∈ app (life n (r.hist t)) →
    (∃ d, pair t c d) ∨ Stale a n c (r.hist t)
  there : ∀ t l d, T ≤ t → (.accept l n, .opened d n) ∈ app (life a (r.hist t)) →
    (∃ c, pair t c d) ∨ Stale n a d (r.hist t)

end Rsomeip.Spec.TcpCrash
