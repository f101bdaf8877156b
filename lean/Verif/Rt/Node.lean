import Verif.Rt.Endpoint
import Verif.Rt.Udp

/-!
# An endpoint on a UDP socket

`Verif.Rt.Endpoint` leaves open what the socket does, `Verif.Rt.Udp` leaves open who uses it. Here
the two are put together: `Endpoint::spawn` is given a `UdpSocket`, every connection task owns a
`UdpSender` and a `UdpReceiver`, every listener task a `UdpListener`. What one side calls, the other
side performs, in one step.

Simplified: a task that ends drops its halves of the socket in the same step.
-/

namespace Rsomeip.Rt.Node

/-- An endpoint task with its connector (`/repo/rsomeip/src/endpoint/v1.rs:323-339`), the socket, and
who owns what of it: `chan c` is the channel of connection `c`'s receiver
(`/repo/rsomeip/src/endpoint/v1/connection.rs:300-310`), `backlog l` the queue of listener `l`
(`/repo/rsomeip/src/endpoint/v1/listener.rs:156-166`). -/
structure State where
  ep : Ep.State
  udp : Udp.State
  chan : Nat → Nat
  backlog : Nat → Nat

/-- `UdpSocket::bind` and `Endpoint::spawn` (`/repo/rsomeip/src/socket/udp.rs:105-131`,
`/repo/rsomeip/src/endpoint/v1.rs:112-126`). -/
def init : State where
  ep := Ep.init
  udp := Udp.init
  chan _ := 0
  backlog _ := 0

/-- What can happen next: a step of the endpoint (`/repo/rsomeip/src/endpoint/v1.rs`), or one of the
socket's own task and of the operating system (`/repo/rsomeip/src/socket/udp.rs:257-305`). -/
inductive Action where
  /-- A step of the endpoint, its tasks, or its user, together with the calls it makes to the
  socket. -/
  | app (x : Ep.Action)
  /-- The operating system delivers a datagram. -/
  | datagram (a : Addr) (p : Bytes)
  /-- The operating system's socket fails. -/
  | failure
  /-- The socket's receiving task takes its next step. -/
  | task
  deriving DecidableEq

/-- What an action shows (`/repo/rsomeip/src/socket/udp.rs:138-322`): what the endpoint shows, what
happens at the socket, and what is handed to the operating system for sending, with its destination. -/
structure Obs where
  ep : Option Ep.Obs
  udp : List (Udp.Action × Udp.Obs)
  out : List (Addr × Bytes)
  deriving DecidableEq

/-- The socket's answer (`/repo/rsomeip/src/socket/udp.rs:138-322`) to a call that makes no new connection
or listener; `none` if it has to wait. -/
def call (s : State) (e : Ep.State) (o : Ep.Obs) (u : Udp.Action) : Option (State × Obs) :=
  match Udp.step s.udp u with
  | some (v, w) => some ({ s with ep := e, udp := v }, ⟨some o, [(u, w)], []⟩)
  | none => none

/-- No call to the socket is made: all steps but those at `/repo/rsomeip/src/endpoint/v1.rs:404,465,511`,
`v1/listener.rs:185` and `v1/connection.rs:333,419`. -/
def still (s : State) (e : Ep.State) (o : Ep.Obs) : Option (State × Obs) :=
  some ({ s with ep := e }, ⟨some o, [], []⟩)

/-- The endpoint task's calls (`/repo/rsomeip/src/endpoint/v1.rs:404,465,511`): `connect` and
`listen(8)`, which do not fail on a UDP socket. When the task ends, the socket is dropped. -/
def epCall (s : State) (e : Ep.State) (o : Ep.Obs) : Option (State × Obs) :=
  match o with
  | .opened c a =>
    match Udp.step s.udp (.connect a) with
    | some (v, .connection d b) =>
      some ({ s with ep := e, udp := v, chan := upd s.chan c d },
        ⟨some o, [(.connect a, .connection d b)], []⟩)
    | _ => none
  | .ended => call s e o .close
  | _ =>
    if e.lisCount = s.ep.lisCount then still s e o
    else
      match Udp.step s.udp (.listen 8) with
      | some (v, .listening d) =>
        some ({ s with ep := e, udp := v, backlog := upd s.backlog s.ep.lisCount d },
          ⟨some o, [(.listen 8, .listening d)], []⟩)
      | _ => none

/-- `UdpListener::accept` in the listener task (`/repo/rsomeip/src/endpoint/v1/listener.rs:184-186`)
returns a connection. -/
def acceptCall (s : State) (e : Ep.State) (o : Ep.Obs) (l : Nat) (a : Addr) : Option (State × Obs) :=
  match Udp.step s.udp (.accept (s.backlog l)) with
  | some (v, .connection d b) =>
    if b = a then
      some ({ s with ep := e, udp := v, chan := upd s.chan s.ep.connCount d },
        ⟨some o, [(.accept (s.backlog l), .connection d b)], []⟩)
    else none
  | _ => none

/-- What `UdpReceiver::recv` returned, as `Receiver::recv`
(`/repo/rsomeip/src/socket/udp.rs:198-203`). -/
def received : Udp.Obs → Option Recv
  | .packet p => some (.packet p)
  | .lagged n => some (.lagged n)
  | .closed => some .closed
  | _ => none

/-- The receiver of connection `c` is dropped if its task has ended
(`/repo/rsomeip/src/endpoint/v1/connection.rs:285-293`). -/
def release (s : State) (e : Ep.State) (o : Ep.Obs) (c : Nat) : Option (State × Obs) :=
  if (e.conns c).alive then still s e o else call s e o (.dropReceiver (s.chan c))

/-- `UdpReceiver::recv` in the connection task
(`/repo/rsomeip/src/endpoint/v1/connection.rs:333`). -/
def recvCall (s : State) (e : Ep.State) (o : Ep.Obs) (c : Nat) (r : Recv) : Option (State × Obs) :=
  match Udp.step s.udp (.recv (s.chan c)) with
  | some (v, w) =>
    if received w = some r then
      match release { s with udp := v } e o c with
      | some (s', ⟨_, us, _⟩) => some (s', ⟨some o, (.recv (s.chan c), w) :: us, []⟩)
      | none => none
    else none
  | none => none

/-- `UdpSender::send` in the connection task
(`/repo/rsomeip/src/endpoint/v1/connection.rs:419`, `/repo/rsomeip/src/socket/udp.rs:177-187`); `ok`
is the answer it gives. -/
def sendCall (s : State) (e : Ep.State) (o : Ep.Obs) (c : Nat) (ok : Bool) : Option (State × Obs) :=
  match (s.ep.conns c).out with
  | some b =>
    match Udp.send (fun _ => ok) b with
    | (w, r) =>
      if r.isOk = ok then
        match release s e o c with
        | some (s', ⟨_, us, _⟩) =>
          some (s', ⟨some o, us, (w.map fun b => ((s.ep.conns c).addr, b)).toList⟩)
        | none => none
      else none
  | none => none

/-- The calls to the socket made by a step of the endpoint (`/repo/rsomeip/src/endpoint/v1.rs:404,465,511`,
`v1/listener.rs:185`, `v1/connection.rs:333,419`); `e` is the endpoint's state after the
step and `o` what it shows. -/
def appCall (s : State) (x : Ep.Action) (e : Ep.State) (o : Ep.Obs) : Option (State × Obs) :=
  match x with
  | .ep ok => if ok then epCall s e o else none
  | .accept l a => acceptCall s e o l a
  | .acceptNone l =>
    match Udp.step s.udp (.accept (s.backlog l)) with
    | some (v, .acceptNone) =>
      match Udp.step v (.dropListener (s.backlog l)) with
      | some (v', w) =>
        some ({ s with ep := e, udp := v' },
          ⟨some o, [(.accept (s.backlog l), .acceptNone), (.dropListener (s.backlog l), w)], []⟩)
      | none => none
    | _ => none
  | .lisCmd l =>
    if (e.liss l).alive then still s e o else call s e o (.dropListener (s.backlog l))
  | .packet c r => recvCall s e o c r
  | .connCmd c => release s e o c
  | .sent c ok => sendCall s e o c ok
  | _ => still s e o

/-- One step of an endpoint on a UDP socket (`/repo/rsomeip/src/endpoint/v1.rs:112-126`,
`/repo/rsomeip/src/socket/udp.rs:105-131`); `none` if the action cannot happen now. -/
def step (s : State) : Action → Option (State × Obs)
  | .app x =>
    match Ep.step true s.ep x with
    | some (e, o) => appCall s x e o
    | none => none
  | .datagram a p =>
    match Udp.step s.udp (.datagram a p) with
    | some (v, w) => some ({ s with udp := v }, ⟨none, [(.datagram a p, w)], []⟩)
    | none => none
  | .failure =>
    match Udp.step s.udp .failure with
    | some (v, w) => some ({ s with udp := v }, ⟨none, [(.failure, w)], []⟩)
    | none => none
  | .task =>
    match Udp.step s.udp .task with
    | some (v, w) => some ({ s with udp := v }, ⟨none, [(.task, w)], []⟩)
    | none => none

end Rsomeip.Rt.Node
