import Verif.Bytes.Buf
import Verif.Support.Map

/-!
# Model of `/repo/rsomeip/src/socket/udp.rs`

A UDP socket is a transition system. The receiving task runs on another thread than the user of the
socket, so its steps are as fine as the locks and channel operations it performs; the user's calls
interleave with them in any order. The operating system is the environment: it may hand the task any
datagram from any address at any time.

Library types are modelled from their documentation: `tokio::sync::broadcast` with its only
receiver (`Chan`), `tokio::sync::mpsc` (`Backlog`), `Mutex` (a critical section is one step, except
for the listener's, which is held over several). A broadcast channel is closed when no sender is
left; senders live in the map of receivers and, for the moment, in the receiving task. The map and
the listener's sender are shared by the `UdpSocket` and the receiving task and exist as long as one
of the two does.
-/

namespace Rsomeip.Rt

/-- `SocketAddr` (`/repo/rsomeip/src/socket.rs:27`). Simplified: an opaque value that can be
compared. -/
abbrev Addr := Nat

/-- Function update, used for the tables of channels (`/repo/rsomeip/src/socket/udp.rs:141,154,292`). -/
def upd {α : Type} (f : Nat → α) (i : Nat) (v : α) : Nat → α := fun j => if j = i then v else f j

namespace Udp

/-- `MAX_DATAGRAM_SIZE` (`/repo/rsomeip/src/socket/udp.rs:43`) and the size of the task's buffer
(`:234`). -/
def maxDatagramSize : Nat := 1400

/-- A broadcast channel with one receiver, as created by `connect`
(`/repo/rsomeip/src/socket/udp.rs:141`) and `process_new_connection` (`:292`). `peer` is the address
under which the sender is stored. `missed` counts the oldest packets overwritten since the receiver
last looked. `rx`: the receiver exists; `held`: it was given to the user (a pending connection's
receiver is in a listener's queue). -/
structure Chan where
  peer : Addr
  cap : Nat
  queue : List Bytes
  missed : Nat
  rx : Bool
  held : Bool
  deriving Repr, DecidableEq

/-- `broadcast::Sender::send` (used at `/repo/rsomeip/src/socket/udp.rs:269,296`) when the receiver
exists: the packet is appended and the oldest one is overwritten if the channel is full. -/
def Chan.push (c : Chan) (p : Bytes) : Chan :=
  if c.queue.length < c.cap then { c with queue := c.queue ++ [p] }
  else { c with queue := c.queue.drop 1 ++ [p], missed := c.missed + 1 }

/-- The queue of a `UdpListener`, an `mpsc` channel (`/repo/rsomeip/src/socket/udp.rs:154`), with
the channel number and address of each pending connection. -/
structure Backlog where
  cap : Nat
  queue : List (Nat × Addr)
  rx : Bool
  deriving Repr, DecidableEq

/-- Where the receiving task is (`/repo/rsomeip/src/socket/udp.rs:257-305`). -/
inductive Pc where
  /-- Waiting in `recv_from` (`:258`). -/
  | idle
  /-- `run` has returned (`:258`). -/
  | stopped
  /-- A packet was read, before `receivers.get` (`:268`). -/
  | lookup (a : Addr) (p : Bytes)
  /-- Holds a clone of the sender of channel `c`, before `send` (`:269`). -/
  | found (a : Addr) (p : Bytes) (c : Nat)
  /-- `send` failed, before `receivers.remove` (`:272`). -/
  | stale (a : Addr) (p : Bytes)
  /-- Before locking the listener (`:285`). -/
  | admit (a : Addr) (p : Bytes)
  /-- The connection with channel `c` was queued, before `sender.send` (`:296`). Holds the lock. -/
  | queued (a : Addr) (p : Bytes) (c : Nat)
  /-- Before `receivers.insert` (`:297`). Holds the lock. -/
  | filled (a : Addr) (c : Nat)
  deriving Repr, DecidableEq

/-- The task holds the mutex of the listener (`/repo/rsomeip/src/socket/udp.rs:285-304`). -/
def Pc.locked : Pc → Bool
  | .queued .. => true
  | .filled .. => true
  | _ => false

/-- `UdpSocket` (`/repo/rsomeip/src/socket/udp.rs:85-94`) with its `ReceiverTask` (`:208-219`) and
the channels and listeners created so far. `owner`: the `UdpSocket` has not been dropped.
Simplified: the cancellation token is not cancelled by any code, nor by dropping it (only a
`DropGuard` would do that), and is left out. -/
structure State where
  owner : Bool
  chans : Nat → Chan
  chanCount : Nat
  backlogs : Nat → Backlog
  backlogCount : Nat
  receivers : Map Addr Nat
  listener : Option Nat
  pc : Pc

/-- `UdpSocket::bind` (`/repo/rsomeip/src/socket/udp.rs:105-130`). Simplified: binding and joining a
multicast group succeed. -/
def init : State where
  owner := true
  chans _ := ⟨0, 0, [], 0, false, false⟩
  chanCount := 0
  backlogs _ := ⟨0, [], false⟩
  backlogCount := 0
  receivers := Map.empty
  listener := none
  pc := .idle

/-- What can happen next: calls of the user (`/repo/rsomeip/src/socket/udp.rs:138-203,320-322`), steps of the
receiving task (`:257-305`), and datagrams or errors from the operating system (`:258`). -/
inductive Action where
  /-- The operating system delivers a datagram. -/
  | datagram (a : Addr) (p : Bytes)
  /-- `recv_from` fails. -/
  | failure
  /-- The receiving task takes its next step. -/
  | task
  /-- `UdpSocket::connect`. -/
  | connect (a : Addr)
  /-- `UdpSocket::listen`. -/
  | listen (backlog : Nat)
  /-- `UdpListener::accept` returns. -/
  | accept (l : Nat)
  /-- The `UdpListener` is dropped. -/
  | dropListener (l : Nat)
  /-- `UdpReceiver::recv` returns. -/
  | recv (c : Nat)
  /-- The `UdpReceiver` is dropped. -/
  | dropReceiver (c : Nat)
  /-- The `UdpSocket` is dropped. -/
  | close
  deriving Repr, DecidableEq

/-- Why a packet was thrown away (`/repo/rsomeip/src/socket/udp.rs:286,299,300`). -/
inductive Loss where
  | noListener
  | backlogFull
  | listenerClosed
  | receiverDropped
  deriving Repr, DecidableEq

/-- What an action shows: what the calls return (`/repo/rsomeip/src/socket/udp.rs:138-203,320-322`), and what
becomes of a datagram (`:267-305`). -/
inductive Obs where
  | none
  /-- The packet was put into channel `c`. -/
  | routed (a : Addr) (p : Bytes) (c : Nat)
  /-- The packet made a new connection with channel `c`, which was queued for `accept`. -/
  | admitted (a : Addr) (p : Bytes) (c : Nat)
  /-- The packet was thrown away. -/
  | lost (a : Addr) (p : Bytes) (why : Loss)
  /-- A connection was returned by `connect`, or by `accept` with its address. -/
  | connection (c : Nat) (a : Addr)
  /-- A listener was returned by `listen`. -/
  | listening (l : Nat)
  /-- `accept` returned `None`. -/
  | acceptNone
  /-- `recv` returned a packet. -/
  | packet (p : Bytes)
  /-- `recv` returned `Lagged`. -/
  | lagged (n : Nat)
  /-- `recv` returned `Closed`. -/
  | closed
  /-- The call panicked. -/
  | panic
  deriving Repr, DecidableEq

/-- The shared tables exist (`/repo/rsomeip/src/socket/udp.rs:85-94,208-219`): the `UdpSocket` or
the receiving task owns them. -/
def State.shared (s : State) : Bool := s.owner || s.pc != .stopped

/-- Channel `c` still has a sender: in the map of receivers (`/repo/rsomeip/src/socket/udp.rs:297`), or held by
the task (`:292`). -/
def State.hasSender (s : State) (c : Nat) : Bool :=
  s.shared && s.receivers.entries.any (fun e => e.2 = c) ||
    match s.pc with
    | .found _ _ c' => c' = c
    | .queued _ _ c' => c' = c
    | .filled _ c' => c' = c
    | _ => false

/-- `UdpSocket::connect` (`/repo/rsomeip/src/socket/udp.rs:140-151`). -/
def connect (s : State) (a : Addr) : Option (State × Obs) :=
  if s.owner then some
    ({ s with
        chans := upd s.chans s.chanCount ⟨a, 8, [], 0, true, true⟩
        chanCount := s.chanCount + 1
        receivers := (s.receivers.insert a s.chanCount).2 },
      .connection s.chanCount a)
  else none

/-- `UdpSocket::listen` (`/repo/rsomeip/src/socket/udp.rs:153-161`). `mpsc::channel(0)` panics. The
mutex must be free. -/
def listen (s : State) (backlog : Nat) : Option (State × Obs) :=
  if s.owner = false then none
  else if backlog = 0 then some (s, .panic)
  else if s.pc.locked then none
  else some
    ({ s with
        backlogs := upd s.backlogs s.backlogCount ⟨backlog, [], true⟩
        backlogCount := s.backlogCount + 1
        listener := some s.backlogCount },
      .listening s.backlogCount)

/-- `ReceiverTask::process_new_connection` up to and including `try_send`
(`/repo/rsomeip/src/socket/udp.rs:283-304`). -/
def admit (s : State) (a : Addr) (p : Bytes) : State × Obs :=
  match s.listener with
  | none => ({ s with pc := .idle }, .lost a p .noListener)
  | some l =>
    if (s.backlogs l).rx then
      if (s.backlogs l).queue.length < (s.backlogs l).cap then
        ({ s with
            chans := upd s.chans s.chanCount ⟨a, 32, [], 0, true, false⟩
            chanCount := s.chanCount + 1
            backlogs := upd s.backlogs l
              { s.backlogs l with queue := (s.backlogs l).queue ++ [(s.chanCount, a)] }
            pc := .queued a p s.chanCount },
          .admitted a p s.chanCount)
      else ({ s with pc := .idle }, .lost a p .backlogFull)
    else ({ s with listener := none, pc := .idle }, .lost a p .listenerClosed)

/-- One step of the receiving task (`/repo/rsomeip/src/socket/udp.rs:257-305`). -/
def task (s : State) : Option (State × Obs) :=
  match s.pc with
  | .idle => none
  | .stopped => none
  | .lookup a p =>
    match s.receivers.get a with
    | some c => some ({ s with pc := .found a p c }, .none)
    | none => some ({ s with pc := .admit a p }, .none)
  | .found a p c =>
    if (s.chans c).rx then
      some ({ s with chans := upd s.chans c ((s.chans c).push p), pc := .idle }, .routed a p c)
    else some ({ s with pc := .stale a p }, .none)
  | .stale a p => some ({ s with receivers := (s.receivers.remove a).2, pc := .admit a p }, .none)
  | .admit a p => some (admit s a p)
  | .queued a p c =>
    if (s.chans c).rx then
      some ({ s with chans := upd s.chans c ((s.chans c).push p), pc := .filled a c },
        .routed a p c)
    else some ({ s with pc := .filled a c }, .lost a p .receiverDropped)
  | .filled a c => some ({ s with receivers := (s.receivers.insert a c).2, pc := .idle }, .none)

/-- `UdpListener::accept` (`/repo/rsomeip/src/socket/udp.rs:320-322`): waits while the queue is
empty and the shared tables still have this listener's sender. -/
def accept (s : State) (l : Nat) : Option (State × Obs) :=
  if l < s.backlogCount ∧ (s.backlogs l).rx then
    match (s.backlogs l).queue with
    | (c, a) :: q =>
      some
        ({ s with
            backlogs := upd s.backlogs l { s.backlogs l with queue := q }
            chans := upd s.chans c { s.chans c with held := true } },
          .connection c a)
    | [] => if s.listener = some l ∧ s.shared then none else some (s, .acceptNone)
  else none

/-- A `UdpListener` is dropped (`/repo/rsomeip/src/socket/udp.rs:312-314`). Dropping an `mpsc` receiver
drops what is queued; a dropped pending connection drops its receiver. -/
def dropListener (s : State) (l : Nat) : Option (State × Obs) :=
  if l < s.backlogCount ∧ (s.backlogs l).rx then
    some
      ({ s with
          backlogs := upd s.backlogs l { s.backlogs l with queue := [], rx := false }
          chans := fun c =>
            if (s.backlogs l).queue.any (fun e => e.1 = c) then
              { s.chans c with queue := [], rx := false }
            else s.chans c },
        .none)
  else none

/-- `UdpReceiver::recv` (`/repo/rsomeip/src/socket/udp.rs:198-203`) over `broadcast::Receiver::recv`:
a report of missed packets comes first, then the oldest packet, then `Closed` once no sender is
left. -/
def recv (s : State) (c : Nat) : Option (State × Obs) :=
  if c < s.chanCount ∧ (s.chans c).rx ∧ (s.chans c).held then
    if (s.chans c).missed > 0 then
      some ({ s with chans := upd s.chans c { s.chans c with missed := 0 } },
        .lagged (s.chans c).missed)
    else
      match (s.chans c).queue with
      | p :: q => some ({ s with chans := upd s.chans c { s.chans c with queue := q } }, .packet p)
      | [] => if s.hasSender c then none else some (s, .closed)
  else none

/-- The `UdpReceiver` (`/repo/rsomeip/src/socket/udp.rs:193-195`) is dropped; what was queued is gone. -/
def dropReceiver (s : State) (c : Nat) : Option (State × Obs) :=
  if c < s.chanCount ∧ (s.chans c).rx ∧ (s.chans c).held then
    some ({ s with chans := upd s.chans c { s.chans c with queue := [], rx := false } }, .none)
  else none

/-- One step of the system; `none` if the action cannot happen now. A datagram longer than the
task's buffer is cut by `recv_from` (`/repo/rsomeip/src/socket/udp.rs:258-259`). -/
def step (s : State) : Action → Option (State × Obs)
  | .datagram a p =>
    if s.pc = .idle then some ({ s with pc := .lookup a (p.take maxDatagramSize) }, .none)
    else none
  | .failure => if s.pc = .idle then some ({ s with pc := .stopped }, .none) else none
  | .task => task s
  | .connect a => connect s a
  | .listen n => listen s n
  | .accept l => accept s l
  | .dropListener l => dropListener s l
  | .recv c => recv s c
  | .dropReceiver c => dropReceiver s c
  | .close => if s.owner then some ({ s with owner := false }, .none) else none

/-- `UdpSender::send` (`/repo/rsomeip/src/socket/udp.rs:177-187`). `os` is the answer of
`net::UdpSocket::send_to`. The first component is what was handed to the operating system. -/
def send (os : Bytes → Bool) (buffer : Bytes) : Option Bytes × Except Bytes Unit :=
  if buffer.length > maxDatagramSize then (none, .error buffer)
  else if os buffer then (some buffer, .ok ()) else (some buffer, .error buffer)

end Udp

end Rsomeip.Rt
