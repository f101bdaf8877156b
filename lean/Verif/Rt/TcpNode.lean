import Verif.Rt.Endpoint
import Verif.Rt.Tcp

/-!
# An endpoint on a TCP socket

`Endpoint::spawn` is given a `TcpSocket`, every connection task owns a `TcpSender` and a
`TcpReceiver`. The loops of `send` and `recv` are performed round by round, with arbitrary answers of
the operating system, while everything else in the endpoint goes on.

Simplified: whether `connect`, `listen` and `accept` succeed, and which remote a connection has, is
up to the operating system; that it reports a failure of the listener as well, which ends the
listener task.
-/

namespace Rsomeip.Rt.TcpNode

/-- An endpoint task with its connector (`/repo/rsomeip/src/endpoint/v1.rs:323-339`) and the streams
of its connections: `inb c` has arrived and was not read yet, `eof c`: the remote has closed its
side, `sent c` bytes of the buffer in `TcpSender::send` have been taken
(`/repo/rsomeip/src/socket/tcp.rs:132`). -/
structure State where
  ep : Ep.State
  inb : Nat → Bytes
  eof : Nat → Bool
  sent : Nat → Nat

/-- `TcpSocket::new` and `Endpoint::spawn` (`/repo/rsomeip/src/socket/tcp.rs:85-90`,
`/repo/rsomeip/src/endpoint/v1.rs:112-126`). -/
def init : State where
  ep := Ep.init
  inb _ := []
  eof _ := false
  sent _ := 0

/-- What can happen next: a step of the endpoint (`/repo/rsomeip/src/endpoint/v1.rs`), a round of one of
the loops in `/repo/rsomeip/src/socket/tcp.rs:133-148,173-186`, or something on the network. -/
inductive Action where
  /-- A step of the endpoint, its tasks, or its user, that neither reads nor writes. -/
  | app (x : Ep.Action)
  /-- Bytes arrive on a connection. -/
  | arrive (c : Nat) (b : Bytes)
  /-- The remote closes its side of a connection. -/
  | shut (c : Nat)
  /-- One round of `TcpReceiver::recv`. -/
  | read (c : Nat) (a : Tcp.ReadAnswer)
  /-- One round of `TcpSender::send`. -/
  | write (c : Nat) (a : Tcp.WriteAnswer)
  deriving DecidableEq

/-- What an action shows: what happens in the endpoint, and what is written to a connection's
stream (`/repo/rsomeip/src/socket/tcp.rs:136`). -/
structure Obs where
  ep : Option (Ep.Action × Ep.Obs)
  out : Option (Nat × Bytes)
  deriving DecidableEq

/-- What `try_read` of the operating system can answer when `b` has arrived
(`/repo/rsomeip/src/socket/tcp.rs:175`): some bytes if there are any, no bytes only at the end of the
stream. -/
def possible (b : Bytes) (eof : Bool) : Tcp.ReadAnswer → Bool
  | .read n => if b = [] then eof else 0 < n
  | _ => true

/-- A step of the endpoint `x` (`/repo/rsomeip/src/endpoint/v1.rs`), after which the streams are as in
`s`, and `out` was written. -/
def does (s : State) (x : Ep.Action) (out : Option (Nat × Bytes)) : Option (State × Obs) :=
  match Ep.step false s.ep x with
  | some (e, o) => some ({ s with ep := e }, ⟨some (x, o), out⟩)
  | none => none

/-- One round of the loop in `TcpReceiver::recv` (`/repo/rsomeip/src/socket/tcp.rs:173-186`), called
by `ReceiverTask::recv` (`/repo/rsomeip/src/endpoint/v1/connection.rs:333`). -/
def read (s : State) (c : Nat) (a : Tcp.ReadAnswer) : Option (State × Obs) :=
  if (s.ep.conns c).alive ∧ (s.ep.conns c).pc = .wait ∧ possible (s.inb c) (s.eof c) a then
    match Tcp.recv (s.inb c) [a] with
    | (none, _, _) => some (s, ⟨none, none⟩)
    | (some r, rest, _) => does { s with inb := upd s.inb c rest } (.packet c r) none
  else none

/-- One round of the loop in `TcpSender::send` (`/repo/rsomeip/src/socket/tcp.rs:133-148`), called by
`SenderTask::commands` (`/repo/rsomeip/src/endpoint/v1/connection.rs:419`). -/
def write (s : State) (c : Nat) (a : Tcp.WriteAnswer) : Option (State × Obs) :=
  match (s.ep.conns c).out with
  | some b =>
    match Tcp.send b (s.sent c) [] [a] with
    | (.pending, w) =>
      some ({ s with sent := upd s.sent c (s.sent c + w.length) }, ⟨none, some (c, w)⟩)
    | (.ok, w) => does { s with sent := upd s.sent c 0 } (.sent c true) (some (c, w))
    | (.error _, w) => does { s with sent := upd s.sent c 0 } (.sent c false) (some (c, w))
    | (.panic, _) => none
  | none => none

/-- One step of an endpoint on a TCP socket (`/repo/rsomeip/src/endpoint/v1.rs:112-126`,
`/repo/rsomeip/src/socket/tcp.rs`); `none` if the action cannot happen now. -/
def step (s : State) : Action → Option (State × Obs)
  | .app (.packet _ _) => none
  | .app (.sent _ _) => none
  | .app x => does s x none
  | .arrive c b =>
    if c < s.ep.connCount ∧ s.eof c = false then
      some ({ s with inb := upd s.inb c (s.inb c ++ b) }, ⟨none, none⟩)
    else none
  | .shut c =>
    if c < s.ep.connCount then some ({ s with eof := upd s.eof c true }, ⟨none, none⟩) else none
  | .read c a => read s c a
  | .write c a => write s c a

end Rsomeip.Rt.TcpNode
