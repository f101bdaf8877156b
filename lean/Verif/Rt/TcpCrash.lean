import Verif.Rt.TcpNet

/-!
# Programs connected by TCP that crash and are started again

The programs of `Verif.Rt.TcpNet`, each of which may be killed at any point and started again at the same
address. Nothing of a program outlives it: the crate keeps no state outside of the process
(`/repo/rsomeip/src/endpoint/v1.rs:112-126` and `/repo/rsomeip/src/socket/tcp.rs:80-90` build all of it
anew). The operating system closes its connections: the connections that wait to be accepted by it are gone,
nothing arrives on the others any more at this end. What it has written may still arrive at the other ends;
those learn of the crash at any time or never.

The connections of a program are numbered through all its lives; in the present one the numbers start with
`base`, so that connection `c` of the endpoint has number `base + c` here.

Simplified: as in `Verif.Rt.TcpNet`. A program is killed between two steps of the model, and the next one has
spawned its endpoint at once; the time between them is a time at which it does nothing.
-/

namespace Rsomeip.Rt.TcpCrash

/-- As in `Verif.Rt.TcpNet` (`/repo/rsomeip/src/socket/tcp.rs:80-90,106,117,136,203`), with the number of
connections that a program had in its former lives. -/
structure State where
  nodes : Addr → TcpNode.State
  base : Addr → Nat
  peer : Addr → Nat → Option (Addr × Nat)
  backlog : Addr → List (Addr × Nat)
  pipe : Addr → Nat → Bytes

/-- Every program has spawned its endpoint (`/repo/rsomeip/src/endpoint/v1.rs:112-126`). -/
def init : State where
  nodes _ := TcpNode.init
  base _ := 0
  peer _ _ := none
  backlog _ := []
  pipe _ _ := []

/-- A step of one of the programs as in `Verif.Rt.TcpNet` (`/repo/rsomeip/src/socket/tcp.rs:92-211`), or the
program at an address is killed and started again, with `TcpSocket::new` (`:80-90`) and `Endpoint::spawn`
(`/repo/rsomeip/src/endpoint/v1.rs:112-126`). -/
inductive Action where
  | net (n : Addr) (x : TcpNode.Action) (d : Nat)
  | crash (n : Addr)
  deriving DecidableEq

/-- TCP can do this: `accept` (`/repo/rsomeip/src/socket/tcp.rs:203`) returns a connection that was made, and
what arrives (`:175`) was written at the other end. From and to an address that is not one of the
programs' everything is possible. -/
def possible (own : Addr → Bool) (s : State) (n : Addr) (d : Nat) : TcpNode.Action → Bool
  | .app (.accept _ a) => !own a || (s.backlog n).contains (a, d)
  | .arrive c b =>
    match s.peer n (s.base n + c) with
    | some (m, e) => b.isPrefixOf (s.pipe m e)
    | none => !own ((s.nodes n).ep.conns c).addr
  | _ => true

/-- Two ends become one connection (`/repo/rsomeip/src/socket/tcp.rs:106,203`). -/
def link (s : State) (n : Addr) (c : Nat) (a : Addr) (d : Nat) : State :=
  { s with
    peer := TcpNet.set (TcpNet.set s.peer n c (some (a, d))) a d (some (n, c))
    backlog := upd s.backlog n ((s.backlog n).filter (· ≠ (a, d))) }

/-- What a step does to the connections: `connect` (`/repo/rsomeip/src/socket/tcp.rs:106`) makes one that
waits to be accepted, or meets one that the other program is making; `accept` (`:203`) returns one,
`try_read` (`:175`) and `try_write` (`:136`) move bytes. -/
def carry (own : Addr → Bool) (s : State) (n : Addr) (d : Nat) : TcpNode.Action → TcpNode.Obs → State
  | .app (.accept _ a), ⟨some (_, .opened c _), _⟩ =>
    if own a then link s n (s.base n + c) a d else s
  | .app _, ⟨some (_, .opened c a), _⟩ =>
    if own a then
      if (s.backlog n).contains (a, d) || (a, d) == (n, s.base n + c) then link s n (s.base n + c) a d
      else { s with backlog := upd s.backlog a (s.backlog a ++ [(n, s.base n + c)]) }
    else s
  | .arrive c b, _ =>
    match s.peer n (s.base n + c) with
    | some (m, e) => { s with pipe := TcpNet.set s.pipe m e ((s.pipe m e).drop b.length) }
    | none => s
  | _, ⟨_, some (c, b)⟩ =>
    { s with pipe := TcpNet.set s.pipe n (s.base n + c) (s.pipe n (s.base n + c) ++ b) }
  | _, _ => s

/-- One step (`/repo/rsomeip/src/socket/tcp.rs:80-211`); `own` says which addresses belong to programs. A
program that is started again has what a new one has (`/repo/rsomeip/src/endpoint/v1.rs:112-126`), and the
connections that waited for it are gone. `none` if it cannot happen now. -/
def step (own : Addr → Bool) (s : State) : Action → Option (State × TcpNode.Obs)
  | .net n x d =>
    if own n && possible own s n d x then
      match TcpNode.step (s.nodes n) x with
      | some (t, o) => some ({ carry own s n d x o with nodes := upd s.nodes n t }, o)
      | none => none
    else none
  | .crash n =>
    if own n then
      some
        ({ s with
            nodes := upd s.nodes n TcpNode.init
            base := upd s.base n (s.base n + (s.nodes n).ep.connCount)
            backlog := upd s.backlog n [] },
          ⟨none, none⟩)
    else none

end Rsomeip.Rt.TcpCrash
