import Verif.Rt.TcpNode

/-!
# Endpoints connected by TCP

Several programs, each with one endpoint on a TCP socket (`Verif.Rt.TcpNode`), and the TCP
implementations of the operating systems between them. Those are the environment of `TcpSocket`
(`/repo/rsomeip/src/socket/tcp.rs:92-120`) and not part of the code: they carry what is written at one
end of a connection to the other end, in order, nothing added, nothing left out before what arrives,
in pieces of any size and at any time; and they can break a connection at any time. Everybody else
can connect and send whatever they like.

Two programs that connect to each other at the same time can get one connection without a listener, and
a program that connects to its own address can get a connection to itself; this is how TCP works with
sockets that are bound to the same address (`:105,116`).

Simplified: a connection to a program can be made whether it listens or not, it is then never accepted;
waiting connections are accepted in any order; two programs can have any number of connections. So
the model has all histories of the code, and others.
-/

namespace Rsomeip.Rt.TcpNet

/-- The programs, by the address their socket is bound to (`/repo/rsomeip/src/socket/tcp.rs:80-90`);
the other end of each connection, given by program and number; the connections that wait to be
accepted by a program (`:117,203`); and what was written to a connection (`:136`) and has not yet
arrived at the other end. -/
structure State where
  nodes : Addr → TcpNode.State
  peer : Addr → Nat → Option (Addr × Nat)
  backlog : Addr → List (Addr × Nat)
  pipe : Addr → Nat → Bytes

/-- Every program has spawned its endpoint (`/repo/rsomeip/src/endpoint/v1.rs:112-126`). -/
def init : State where
  nodes _ := TcpNode.init
  peer _ _ := none
  backlog _ := []
  pipe _ _ := []

/-- A step of the program whose socket is bound to an address (`/repo/rsomeip/src/socket/tcp.rs:80-90`). In
case of `accept` (`:203`) and `connect` (`:106`) the number says which connection of the other program
becomes the other end. -/
abbrev Action := Addr × TcpNode.Action × Nat

/-- TCP can do this: `accept` (`/repo/rsomeip/src/socket/tcp.rs:203`) returns a connection that was made, and
what arrives (`:175`) was written at the other end. From and to an address that is not one of the
programs' everything is possible. -/
def possible (own : Addr → Bool) (s : State) (n : Addr) (d : Nat) : TcpNode.Action → Bool
  | .app (.accept _ a) => !own a || (s.backlog n).contains (a, d)
  | .arrive c b =>
    match s.peer n c with
    | some (m, e) => b.isPrefixOf (s.pipe m e)
    | none => !own ((s.nodes n).ep.conns c).addr
  | _ => true

/-- A two-dimensional table with one entry changed; stands for what the operating system does to one
connection (`/repo/rsomeip/src/socket/tcp.rs:106,136,175,203`). -/
def set {α : Type} (f : Addr → Nat → α) (n : Addr) (c : Nat) (x : α) : Addr → Nat → α :=
  upd f n (upd (f n) c x)

/-- Two ends become one connection (`/repo/rsomeip/src/socket/tcp.rs:106,203`). -/
def link (s : State) (n : Addr) (c : Nat) (a : Addr) (d : Nat) : State :=
  { s with
    peer := set (set s.peer n c (some (a, d))) a d (some (n, c))
    backlog := upd s.backlog n ((s.backlog n).filter (· ≠ (a, d))) }

/-- What a step does to the connections: `connect` (`/repo/rsomeip/src/socket/tcp.rs:106`) makes one that
waits to be accepted, or meets one that the other program is making; `accept` (`:203`) returns one,
`try_read` (`:175`) and `try_write` (`:136`) move bytes. -/
def carry (own : Addr → Bool) (s : State) (n : Addr) (d : Nat) : TcpNode.Action → TcpNode.Obs → State
  | .app (.accept _ a), ⟨some (_, .opened c _), _⟩ =>
    if own a then link s n c a d else s
  | .app _, ⟨some (_, .opened c a), _⟩ =>
    if own a then
      if (s.backlog n).contains (a, d) || (a, d) == (n, c) then link s n c a d
      else { s with backlog := upd s.backlog a (s.backlog a ++ [(n, c)]) }
    else s
  | .arrive c b, _ =>
    match s.peer n c with
    | some (m, e) => { s with pipe := set s.pipe m e ((s.pipe m e).drop b.length) }
    | none => s
  | _, ⟨_, some (c, b)⟩ => { s with pipe := set s.pipe n c (s.pipe n c ++ b) }
  | _, _ => s

/-- One step of the program at address `n`, and of TCP (`/repo/rsomeip/src/socket/tcp.rs:92-211`); `own`
says which addresses belong to programs. `none` if it cannot happen now. -/
def step (own : Addr → Bool) (s : State) (x : Action) : Option (State × TcpNode.Obs) :=
  if own x.1 && possible own s x.1 x.2.2 x.2.1 then
    match TcpNode.step (s.nodes x.1) x.2.1 with
    | some (t, o) => some ({ carry own s x.1 x.2.2 x.2.1 o with nodes := upd s.nodes x.1 t }, o)
    | none => none
  else none

end Rsomeip.Rt.TcpNet
