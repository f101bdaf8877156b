import Verif.Rt.Exec
import Verif.Rt.Tasks
import Verif.Rt.Udp
import Verif.Someip.Interface

/-!
# The asynchronous endpoint

Transcription of `/repo/rsomeip/src/endpoint/v1.rs` and `/repo/rsomeip/src/endpoint/v1/*.rs` as one
transition system. All tasks run on one thread (`LocalSet`) and are interleaved at their `await`
points; a step is what a task does from one `await` to the next. The `socket::Connector` is the
environment: its sockets may deliver and report anything at any time.

Library types are modelled from their documentation:
* `tokio::sync::mpsc`: a bounded queue; `send` waits for room and fails if the receiver is gone;
  `recv` gives the oldest message, or `None` if the queue is empty and no sender is left; dropping
  the receiver drops the queue; `WeakSender::upgrade` succeeds iff a sender is left.
* `scc::HashMap`: a map whose entries are locked from `entry_async().await` until the entry is
  dropped. The library locks a whole bucket, so that calls for other keys of the same bucket have to
  wait too. Which keys share a bucket depends on random hashes and on the size of the table: here
  it is up to the environment and may change at any time.
* `tokio::select!`: when one branch returns, the other one is dropped where it is.

Who owns a sender is computed from the state (`ifStrong`, `connStrong`, `lisStrong`, `epStrong`).
-/

namespace Rsomeip.Rt.Ep

open Someip (InterfaceId)

/-- The channel behind an `Interface` (`/repo/rsomeip/src/endpoint/v1/interface.rs:36-39,52-55`):
what it was created for, what is queued, and whether the receiver, which is inside of a stub or a
proxy, exists. -/
structure Iface where
  id : InterfaceId
  queue : List (Msg × Addr)
  rx : Bool
  deriving DecidableEq, Repr

/-- Capacity of an interface's channel (`/repo/rsomeip/src/endpoint/v1.rs:525`). -/
def ifCap : Nat := 16

/-- `Command` of a connection (`/repo/rsomeip/src/endpoint/v1/connection.rs:437-442`). An interface
is given by the number of its channel. -/
inductive ConnCmd where
  | message (m : Msg)
  | take (id : InterfaceId) (i : Nat)
  deriving DecidableEq, Repr

/-- Where a `ReceiverTask` is (`/repo/rsomeip/src/endpoint/v1/connection.rs:331-360`). -/
inductive RecvPc where
  /-- Waiting for a packet (`connection.rs:333`). -/
  | wait
  /-- In `send_all`, with these messages left (`interface.rs:165-172`). -/
  | route (ms : List Msg)
  /-- In `interface.send` (`interface.rs:147`): holds the entry and a sender. -/
  | sending (i : Nat) (m : Msg) (ms : List Msg)
  deriving DecidableEq, Repr

/-- A `ConnectionTask` (`/repo/rsomeip/src/endpoint/v1/connection.rs:300-432`): the peer's address,
whether the task runs, its command queue, the buffer being sent, the interfaces it owns, and where
its receiver is. -/
structure Conn where
  addr : Addr
  alive : Bool
  cmds : List ConnCmd
  out : Option Bytes
  owned : Map InterfaceId Nat
  pc : RecvPc
  deriving Repr

/-- Capacity of a connection's command channel (`/repo/rsomeip/src/endpoint/v1/connection.rs:59`). -/
def connCap : Nat := 1

/-- Where an `AcceptTask` is (`/repo/rsomeip/src/endpoint/v1/listener.rs:184-194`). -/
inductive LisPc where
  /-- Waiting for a connection (`listener.rs:186`). -/
  | wait
  /-- In `share_and_store` with a new connection (`listener.rs:188`). -/
  | share (c : Nat)
  deriving DecidableEq, Repr

/-- A `ListenerTask` (`/repo/rsomeip/src/endpoint/v1/listener.rs:132-226`): whether the task runs,
its command queue, the interfaces and connections it owns. -/
structure Lis where
  alive : Bool
  cmds : List (InterfaceId × Nat)
  owned : Map InterfaceId Nat
  conns : Map Addr Nat
  pc : LisPc
  deriving Repr

/-- Capacity of a listener's command channel (`/repo/rsomeip/src/endpoint/v1/listener.rs:53`). -/
def lisCap : Nat := 8

/-- Where a call of `Stub::send_to` is (`/repo/rsomeip/src/endpoint/v1.rs:237-260`). -/
inductive StubPc where
  /-- No call. -/
  | idle
  /-- Before `connections.check` (`v1.rs:256`). -/
  | check (a : Addr) (m : Msg)
  /-- Waiting for room in the endpoint's queue (`v1.rs:135`). -/
  | asking (a : Addr) (m : Msg)
  /-- Waiting for the endpoint's answer to request `t` (`v1.rs:139`). -/
  | asked (a : Addr) (m : Msg) (t : Nat)
  /-- In `share_and_store` with a new connection (`v1.rs:240`). -/
  | share (a : Addr) (m : Msg) (c : Nat)
  /-- Before `connections.send_to` (`v1.rs:259`). -/
  | enter (a : Addr) (m : Msg)
  /-- In `connection.send` (`connection.rs:191`): holds the entry and a sender. -/
  | sending (a : Addr) (m : Msg) (c : Nat)
  deriving DecidableEq, Repr

/-- A `Stub` (`/repo/rsomeip/src/endpoint/v1.rs:219-228`): its channel, its listener, whether it
still exists, and the connections it owns. -/
structure Stub where
  iface : Nat
  lis : Nat
  alive : Bool
  conns : Map Addr Nat
  pc : StubPc
  deriving Repr

/-- A `Proxy` (`/repo/rsomeip/src/endpoint/v1.rs:283-290`). -/
structure Proxy where
  iface : Nat
  conn : Nat
  remote : Addr
  alive : Bool
  deriving DecidableEq, Repr

/-- `Command` of an endpoint (`/repo/rsomeip/src/endpoint/v1.rs:534-558`). Requests for connections
carry the stub and the number of the request, in place of the response channel. -/
inductive EpCmd where
  | connect (k : Nat) (a : Addr) (t : Nat)
  | serve (id : InterfaceId)
  | proxy (id : InterfaceId) (a : Addr)
  deriving DecidableEq, Repr

/-- Capacity of the endpoint's command channel (`/repo/rsomeip/src/endpoint/v1.rs:117`). -/
def epCap : Nat := 8

/-- Where the `EndpointTask` is (`/repo/rsomeip/src/endpoint/v1.rs:367-529`). -/
inductive EpPc where
  /-- Waiting for a command (`v1.rs:368`). -/
  | idle
  /-- The task has ended. -/
  | stopped
  /-- Before `interfaces.check` (`v1.rs:425`). -/
  | serveCheck (id : InterfaceId)
  /-- In `listener_or_listen` (`v1.rs:430`). -/
  | serveListen (id : InterfaceId)
  /-- In `create_interface` (`v1.rs:433`), with a listener. -/
  | serveShare (id : InterfaceId) (l : Nat)
  /-- In `listener.take` (`v1.rs:434`). -/
  | serveTake (id : InterfaceId) (l i : Nat)
  /-- Before `interfaces.check` (`v1.rs:482`). -/
  | proxyCheck (id : InterfaceId) (a : Addr)
  /-- Before `connections.get` (`v1.rs:507`). -/
  | proxyGet (id : InterfaceId) (a : Addr)
  /-- In `connector.connect` (`v1.rs:511`). -/
  | proxyConnect (id : InterfaceId) (a : Addr)
  /-- In `create_interface` (`v1.rs:490`), with a connection. -/
  | proxyShare (id : InterfaceId) (a : Addr) (c : Nat)
  /-- In `connection.take` (`v1.rs:491`). -/
  | proxyTake (id : InterfaceId) (a : Addr) (c i : Nat)
  /-- In `connect` (`v1.rs:402`) for a stub. -/
  | connect (k : Nat) (a : Addr) (t : Nat)
  deriving DecidableEq, Repr

/-- An endpoint with everything made so far. `shared` and `peers` are the shared parts of
`Interfaces` (`/repo/rsomeip/src/endpoint/v1/interface.rs:113-118`) and `Connections`
(`/repo/rsomeip/src/endpoint/v1/connection.rs:154-159`); `listener` is the endpoint's `WeakListener`
(`/repo/rsomeip/src/endpoint/v1.rs:332`); `handles`: the user still has an `Endpoint`; `asks` numbers
the requests of stubs; `ifBucket` and `peerBucket` give the bucket of a key in the maps behind
`shared` and `peers`. -/
structure State where
  ifaces : Nat → Iface
  ifCount : Nat
  conns : Nat → Conn
  connCount : Nat
  liss : Nat → Lis
  lisCount : Nat
  stubs : Nat → Stub
  stubCount : Nat
  proxies : Nat → Proxy
  proxyCount : Nat
  shared : Map InterfaceId Nat
  peers : Map Addr Nat
  listener : Option Nat
  handles : Bool
  cmds : List EpCmd
  asks : Nat
  pc : EpPc
  ifBucket : InterfaceId → InterfaceId
  peerBucket : Addr → Addr

/-- `Endpoint::spawn` (`/repo/rsomeip/src/endpoint/v1.rs:112-126,346-355`). -/
def init : State where
  ifaces _ := ⟨⟨0, 0⟩, [], false⟩
  ifCount := 0
  conns _ := ⟨0, false, [], none, .empty, .wait⟩
  connCount := 0
  liss _ := ⟨false, [], .empty, .empty, .wait⟩
  lisCount := 0
  stubs _ := ⟨0, 0, false, .empty, .idle⟩
  stubCount := 0
  proxies _ := ⟨0, 0, 0, false⟩
  proxyCount := 0
  shared := .empty
  peers := .empty
  listener := none
  handles := true
  cmds := []
  asks := 0
  pc := .idle
  ifBucket := id
  peerBucket := id

/-! ### Ownership -/

/-- The connection task owns a sender of channel `i`: stored, in a queued `Take`, or in use by its
receiver (`/repo/rsomeip/src/endpoint/v1/connection.rs:366-376`,
`/repo/rsomeip/src/endpoint/v1/interface.rs:146`). -/
def Conn.holds (c : Conn) (i : Nat) : Bool :=
  c.owned.entries.any (fun e => e.2 = i) ||
    c.cmds.any (fun x => match x with
      | .take _ j => j = i
      | .message _ => false) ||
    match c.pc with
    | .sending j _ _ => j = i
    | _ => false

/-- The listener task owns a sender of channel `i`
(`/repo/rsomeip/src/endpoint/v1/listener.rs:201-206`). -/
def Lis.holds (l : Lis) (i : Nat) : Bool :=
  l.owned.entries.any (fun e => e.2 = i) || l.cmds.any (fun e => e.2 = i)

/-- The listener task owns a handle of connection `c`
(`/repo/rsomeip/src/endpoint/v1/listener.rs:156-166`). -/
def Lis.holdsConn (l : Lis) (c : Nat) : Bool :=
  l.conns.entries.any (fun e => e.2 = c) || l.pc = .share c

/-- The stub owns a handle of connection `c` (`/repo/rsomeip/src/endpoint/v1.rs:219-228,239`,
`/repo/rsomeip/src/endpoint/v1/connection.rs:190`). -/
def Stub.holdsConn (k : Stub) (c : Nat) : Bool :=
  k.conns.entries.any (fun e => e.2 = c) ||
    match k.pc with
    | .share _ _ d => d = c
    | .sending _ _ d => d = c
    | _ => false

/-- The endpoint task owns a sender of channel `i` (`/repo/rsomeip/src/endpoint/v1.rs:433,490`). -/
def EpPc.holds : EpPc → Nat → Bool
  | .serveTake _ _ j, i => j = i
  | .proxyTake _ _ _ j, i => j = i
  | _, _ => false

/-- The endpoint task owns a handle of connection `c` (`/repo/rsomeip/src/endpoint/v1.rs:487`). -/
def EpPc.holdsConn : EpPc → Nat → Bool
  | .proxyShare _ _ d, c => d = c
  | .proxyTake _ _ d _, c => d = c
  | _, _ => false

/-- The endpoint task owns a handle of listener `l` (`/repo/rsomeip/src/endpoint/v1.rs:430`). -/
def EpPc.holdsLis : EpPc → Nat → Bool
  | .serveShare _ k, l => k = l
  | .serveTake _ k _, l => k = l
  | _, _ => false

/-- Channel `i` has a sender, so that `WeakInterface::upgrade`
(`/repo/rsomeip/src/endpoint/v1/interface.rs:97-101`) succeeds. -/
def State.ifStrong (s : State) (i : Nat) : Bool :=
  s.pc.holds i || (List.range s.connCount).any (fun c => (s.conns c).holds i) ||
    (List.range s.lisCount).any (fun l => (s.liss l).holds i)

/-- Connection `c` has a handle, so that `WeakConnection::upgrade`
(`/repo/rsomeip/src/endpoint/v1/connection.rs:138-142`) succeeds. -/
def State.connStrong (s : State) (c : Nat) : Bool :=
  s.pc.holdsConn c || (List.range s.lisCount).any (fun l => (s.liss l).holdsConn c) ||
    (List.range s.stubCount).any (fun k => (s.stubs k).holdsConn c) ||
    (List.range s.proxyCount).any (fun p => (s.proxies p).alive && (s.proxies p).conn = c)

/-- Listener `l` has a handle, so that `WeakListener::upgrade`
(`/repo/rsomeip/src/endpoint/v1/listener.rs:125-129`) succeeds. -/
def State.lisStrong (s : State) (l : Nat) : Bool :=
  s.pc.holdsLis l ||
    (List.range s.stubCount).any (fun k => (s.stubs k).alive && (s.stubs k).lis = l)

/-- The endpoint has a handle, so that `WeakEndpoint::upgrade`
(`/repo/rsomeip/src/endpoint/v1.rs:200-204`) succeeds: the user's, or that of a stub in `connect`
(`:238-241`). -/
def State.epStrong (s : State) : Bool :=
  s.handles || (List.range s.stubCount).any (fun k =>
    match (s.stubs k).pc with
    | .asking .. => true
    | .asked .. => true
    | .share .. => true
    | _ => false)

/-- The entry of an interface is locked (`/repo/rsomeip/src/endpoint/v1/interface.rs:144-153`): some
connection is waiting for room in the channel of this interface, or of one in the same bucket. -/
def State.ifLocked (s : State) (id : InterfaceId) : Bool :=
  (List.range s.connCount).any (fun c =>
    match (s.conns c).pc with
    | .sending _ m _ => s.ifBucket (InterfaceId.of m) = s.ifBucket id
    | _ => false)

/-- The entry of an address is locked (`/repo/rsomeip/src/endpoint/v1/connection.rs:188-199`): some
stub is waiting for room in the channel of the connection to this address, or to one in the same
bucket. -/
def State.peerLocked (s : State) (a : Addr) : Bool :=
  (List.range s.stubCount).any (fun k =>
    match (s.stubs k).pc with
    | .sending b _ _ => s.peerBucket b = s.peerBucket a
    | _ => false)

/-! ### Steps -/

/-- What can happen next: calls of the user (`/repo/rsomeip/src/endpoint/v1.rs:132-320`), steps of the
tasks (`:367-529`, `v1/listener.rs:141-225`, `v1/connection.rs:285-432`), and answers of the socket
(`/repo/rsomeip/src/socket.rs:68-190`). -/
inductive Action where
  /-- `Endpoint::serve` puts its command into the queue. -/
  | serve (id : InterfaceId)
  /-- `Endpoint::proxy` puts its command into the queue. -/
  | proxy (id : InterfaceId) (a : Addr)
  /-- The user drops all `Endpoint` handles. -/
  | close
  /-- The user calls `WeakEndpoint::upgrade`. -/
  | upgrade
  /-- The endpoint task goes on; `ok` is the answer of the connector if one is needed. -/
  | ep (ok : Bool)
  /-- The socket listener accepts a connection. -/
  | accept (l : Nat) (a : Addr)
  /-- The socket listener reports that it is closed. -/
  | acceptNone (l : Nat)
  /-- The listener shares and stores the new connection. -/
  | lisShare (l : Nat)
  /-- The listener takes its next command, or ends. -/
  | lisCmd (l : Nat)
  /-- The socket gives the connection a packet or reports something else. -/
  | packet (c : Nat) (r : Recv)
  /-- The connection goes on routing messages. -/
  | route (c : Nat)
  /-- The connection takes its next command, or ends. -/
  | connCmd (c : Nat)
  /-- The socket has sent the buffer, or failed to. -/
  | sent (c : Nat) (ok : Bool)
  /-- `Stub::send_to` is called. -/
  | stubSend (k : Nat) (a : Addr) (m : Msg)
  /-- `Stub::send_to` goes on. -/
  | stubStep (k : Nat)
  /-- The call of `Stub::send_to` is cancelled: its future is dropped. -/
  | stubCancel (k : Nat)
  /-- `Stub::recv_from` returns. -/
  | stubRecv (k : Nat)
  /-- The stub is dropped. -/
  | dropStub (k : Nat)
  /-- `Proxy::send` returns. -/
  | proxySend (p : Nat) (m : Msg)
  /-- `Proxy::recv` takes the next message from its channel. -/
  | proxyRecv (p : Nat)
  /-- The proxy is dropped. -/
  | dropProxy (p : Nat)
  /-- The interfaces' map has `id` in the same bucket as `id'`. -/
  | hashId (id id' : InterfaceId)
  /-- The connections' map has `a` in the same bucket as `b`. -/
  | hashAddr (a b : Addr)
  deriving DecidableEq

/-- Why a call failed (`/repo/rsomeip/src/endpoint/v1.rs:242,411,426,483`). -/
inductive Why where
  /-- "already exists" (`/repo/rsomeip/src/endpoint/v1.rs:426,483`). -/
  | exists
  /-- "not allowed" (`v1.rs:411`). -/
  | notAllowed
  /-- "not connected" (`v1.rs:242`, `connection.rs:91,107,193,197,200`). -/
  | notConnected
  /-- The connector failed, or the listener is closed (`listener.rs:79`). -/
  | io
  deriving DecidableEq, Repr

/-- Why a message was dropped (`/repo/rsomeip/src/endpoint/v1/interface.rs:148,152,156`): the
interface's receiver is gone, or all its senders, or there is no such interface. -/
inductive Drop where
  | closed
  | dead
  | unknown
  deriving DecidableEq, Repr

/-- What an action shows: what the calls return (`/repo/rsomeip/src/endpoint/v1.rs:132-320`), what is
handed to the socket (`v1/connection.rs:419`), and what becomes of received messages
(`v1/interface.rs:140-172`). -/
inductive Obs where
  | none
  /-- `serve` returned stub `k`, which receives through channel `i`. -/
  | serving (k i : Nat) (id : InterfaceId)
  /-- `proxy` returned proxy `p`, which receives through channel `i`. -/
  | proxying (p i : Nat) (id : InterfaceId) (a : Addr)
  /-- `serve` failed. -/
  | serveFailed (id : InterfaceId) (w : Why)
  /-- `proxy` failed. -/
  | proxyFailed (id : InterfaceId) (a : Addr) (w : Why)
  /-- A connection was accepted, or made by the connector. -/
  | opened (c : Nat) (a : Addr)
  /-- The endpoint's answer to stub `k`, which asked for a connection, is an error, and so is the
  answer of `send_to`. -/
  | connectFailed (k : Nat) (w : Why)
  /-- The message was put into channel `i`. -/
  | routed (i : Nat) (m : Msg) (a : Addr)
  /-- The message was dropped. -/
  | dropped (m : Msg) (w : Drop)
  /-- The socket was given a buffer: it was sent, or not. -/
  | wire (b : Bytes) (ok : Bool)
  /-- `send` or `send_to` returned `Ok`: the message is in the queue of connection `c`. -/
  | accepted (c : Nat) (m : Msg)
  /-- `send` or `send_to` returned an error. -/
  | sendFailed (w : Why)
  /-- `recv_from` returned a message. -/
  | message (m : Msg) (a : Addr)
  /-- `recv` returned a message. -/
  | reply (m : Msg)
  /-- `recv` skipped a message of another peer. -/
  | skipped (m : Msg) (a : Addr)
  /-- `recv_from` or `recv` reported that the connection is closed. -/
  | closed
  /-- The task has ended. -/
  | ended
  /-- `upgrade` returned an `Endpoint`, or `None`. -/
  | upgraded (ok : Bool)
  deriving DecidableEq

/-- `Connection::spawn` (`/repo/rsomeip/src/endpoint/v1/connection.rs:49-80`). -/
def newConn (a : Addr) : Conn := ⟨a, true, [], none, .empty, .wait⟩

/-- A connection task ends (`/repo/rsomeip/src/endpoint/v1/connection.rs:285-293`): everything it
owns is dropped. -/
def Conn.ended (c : Conn) : Conn :=
  { c with alive := false, cmds := [], out := none, owned := .empty, pc := .wait }

/-- `Listener::spawn` (`/repo/rsomeip/src/endpoint/v1/listener.rs:41-68`). -/
def newLis : Lis := ⟨true, [], .empty, .empty, .wait⟩

/-- A listener task ends (`/repo/rsomeip/src/endpoint/v1/listener.rs:141-149`). -/
def deadLis : Lis := ⟨false, [], .empty, .empty, .wait⟩

/-- The receiver of a channel (`/repo/rsomeip/src/endpoint/v1.rs:223,287`) is dropped, and what is queued
with it. -/
def Iface.drop (i : Iface) : Iface := { i with queue := [], rx := false }

/-- The map's entry can be used: there is a channel and it has a sender
(`/repo/rsomeip/src/endpoint/v1/interface.rs:194-197`). -/
def State.known (s : State) (id : InterfaceId) : Bool :=
  match s.shared.get id with
  | some i => s.ifStrong i
  | none => false

/-- The endpoint task takes a command (`/repo/rsomeip/src/endpoint/v1.rs:368-379`), or ends. -/
def epCmd (s : State) : Option (State × Obs) :=
  match s.cmds with
  | .serve id :: q => some ({ s with cmds := q, pc := .serveCheck id }, .none)
  | .proxy id a :: q => some ({ s with cmds := q, pc := .proxyCheck id a }, .none)
  | .connect k a t :: q => some ({ s with cmds := q, pc := .connect k a t }, .none)
  | [] => if s.epStrong then none else some ({ s with pc := .stopped }, .ended)

/-- `create_interface` (`/repo/rsomeip/src/endpoint/v1.rs:518-528`), then `next` with the number of
the new channel. -/
def create (s : State) (id : InterfaceId) (next : Nat → EpPc) : Option (State × Obs) :=
  if s.ifLocked id then none
  else some
    ({ s with
        ifaces := upd s.ifaces s.ifCount ⟨id, [], true⟩
        ifCount := s.ifCount + 1
        shared := (s.shared.insert id s.ifCount).2
        pc := next s.ifCount },
      .none)

/-- The stub that asked for a connection gets it, unless it has given up: then the handle is
dropped (`/repo/rsomeip/src/endpoint/v1.rs:371,139`). -/
def answer (s : State) (k t c : Nat) : Nat → Stub :=
  match (s.stubs k).pc with
  | .asked b m u =>
    if u = t then upd s.stubs k { s.stubs k with pc := .share b m c } else s.stubs
  | _ => s.stubs

/-- The stub that asked for a connection gets an error, unless it has given up
(`/repo/rsomeip/src/endpoint/v1.rs:371,139`). -/
def refuse (s : State) (k t : Nat) : Nat → Stub :=
  match (s.stubs k).pc with
  | .asked _ _ u => if u = t then upd s.stubs k { s.stubs k with pc := .idle } else s.stubs
  | _ => s.stubs

/-- `connect` of the stub returns an error, unless it has given up
(`/repo/rsomeip/src/endpoint/v1.rs:371,139,242`). -/
def refusalShown (s : State) (k t : Nat) (w : Why) : Obs :=
  match (s.stubs k).pc with
  | .asked _ _ u => if u = t then .connectFailed k w else .none
  | _ => .none

/-- One step of the endpoint task (`/repo/rsomeip/src/endpoint/v1.rs:367-529`). `dg`: the protocol
is of type `Datagram`. -/
def ep (dg : Bool) (s : State) (ok : Bool) : Option (State × Obs) :=
  match s.pc with
  | .idle => epCmd s
  | .stopped => none
  | .serveCheck id =>
    if s.ifLocked id then none
    else if s.known id then some ({ s with pc := .idle }, .serveFailed id .exists)
    else some ({ s with pc := .serveListen id }, .none)
  | .serveListen id =>
    match s.listener with
    | some l =>
      if s.lisStrong l then some ({ s with pc := .serveShare id l }, .none)
      else if ok then
        some
          ({ s with
              liss := upd s.liss s.lisCount newLis
              lisCount := s.lisCount + 1
              listener := some s.lisCount
              pc := .serveShare id s.lisCount },
            .none)
      else some ({ s with pc := .idle }, .serveFailed id .io)
    | none =>
      if ok then
        some
          ({ s with
              liss := upd s.liss s.lisCount newLis
              lisCount := s.lisCount + 1
              listener := some s.lisCount
              pc := .serveShare id s.lisCount },
            .none)
      else some ({ s with pc := .idle }, .serveFailed id .io)
  | .serveShare id l => create s id (.serveTake id l)
  | .serveTake id l i =>
    if (s.liss l).alive then
      if (s.liss l).cmds.length < lisCap then
        some
          ({ s with
              liss := upd s.liss l { s.liss l with cmds := (s.liss l).cmds ++ [(id, i)] }
              stubs := upd s.stubs s.stubCount ⟨i, l, true, .empty, .idle⟩
              stubCount := s.stubCount + 1
              pc := .idle },
            .serving s.stubCount i id)
      else none
    else
      some ({ s with ifaces := upd s.ifaces i (s.ifaces i).drop, pc := .idle }, .serveFailed id .io)
  | .proxyCheck id a =>
    if s.ifLocked id then none
    else if s.known id then some ({ s with pc := .idle }, .proxyFailed id a .exists)
    else some ({ s with pc := .proxyGet id a }, .none)
  | .proxyGet id a =>
    if s.peerLocked a then none
    else
      match s.peers.get a with
      | some c =>
        if s.connStrong c then some ({ s with pc := .proxyShare id a c }, .none)
        else some ({ s with pc := .proxyConnect id a }, .none)
      | none => some ({ s with pc := .proxyConnect id a }, .none)
  | .proxyConnect id a =>
    if ok then
      some
        ({ s with
            conns := upd s.conns s.connCount (newConn a)
            connCount := s.connCount + 1
            pc := .proxyShare id a s.connCount },
          .opened s.connCount a)
    else some ({ s with pc := .idle }, .proxyFailed id a .io)
  | .proxyShare id a c => create s id (.proxyTake id a c)
  | .proxyTake id a c i =>
    if (s.conns c).alive then
      if (s.conns c).cmds.length < connCap then
        some
          ({ s with
              conns := upd s.conns c { s.conns c with cmds := (s.conns c).cmds ++ [.take id i] }
              proxies := upd s.proxies s.proxyCount ⟨i, c, a, true⟩
              proxyCount := s.proxyCount + 1
              pc := .idle },
            .proxying s.proxyCount i id a)
      else none
    else
      some ({ s with ifaces := upd s.ifaces i (s.ifaces i).drop, pc := .idle },
        .proxyFailed id a .notConnected)
  | .connect k a t =>
    if dg then
      if ok then
        some
          ({ s with
              conns := upd s.conns s.connCount (newConn a)
              connCount := s.connCount + 1
              stubs := answer s k t s.connCount
              pc := .idle },
            .opened s.connCount a)
      else some ({ s with stubs := refuse s k t, pc := .idle }, refusalShown s k t .io)
    else some ({ s with stubs := refuse s k t, pc := .idle }, refusalShown s k t .notAllowed)

/-- One step of `Connections::share_and_store` for a listener
(`/repo/rsomeip/src/endpoint/v1/connection.rs:230-233`). -/
def lisShare (s : State) (l : Nat) : Option (State × Obs) :=
  match (s.liss l).pc with
  | .share c =>
    if s.peerLocked (s.conns c).addr then none
    else some
      ({ s with
          peers := (s.peers.insert (s.conns c).addr c).2
          liss := upd s.liss l
            { s.liss l with conns := ((s.liss l).conns.insert (s.conns c).addr c).2, pc := .wait } },
        .none)
  | .wait => none

/-- One round of `CommandTask::command` (`/repo/rsomeip/src/endpoint/v1/listener.rs:219-225`). -/
def lisCmd (s : State) (l : Nat) : Option (State × Obs) :=
  if (s.liss l).alive then
    match (s.liss l).cmds with
    | (id, i) :: q =>
      some
        ({ s with
            liss := upd s.liss l
              { s.liss l with cmds := q, owned := ((s.liss l).owned.insert id i).2 } },
          .none)
    | [] => if s.lisStrong l then none else some ({ s with liss := upd s.liss l deadLis }, .ended)
  else none

/-- One round of `ReceiverTask::recv` with what the socket gave
(`/repo/rsomeip/src/endpoint/v1/connection.rs:331-360`). -/
def packet (s : State) (c : Nat) (r : Recv) : Option (State × Obs) :=
  if (s.conns c).alive ∧ (s.conns c).pc = .wait then
    match receive r with
    | .route ms => some ({ s with conns := upd s.conns c { s.conns c with pc := .route ms } }, .none)
    | .drop _ => some (s, .none)
    | .skip => some (s, .none)
    | .stop => some ({ s with conns := upd s.conns c (s.conns c).ended }, .ended)
    | .panic => some ({ s with conns := upd s.conns c (s.conns c).ended }, .ended)
    | .hang => none
  else none

/-- One step of `Interfaces::send_all` (`/repo/rsomeip/src/endpoint/v1/interface.rs:140-172`). -/
def route (s : State) (c : Nat) : Option (State × Obs) :=
  match (s.conns c).pc with
  | .wait => none
  | .route [] => some ({ s with conns := upd s.conns c { s.conns c with pc := .wait } }, .none)
  | .route (m :: ms) =>
    if s.ifLocked (InterfaceId.of m) then none
    else
      match s.shared.get (InterfaceId.of m) with
      | none =>
        some ({ s with conns := upd s.conns c { s.conns c with pc := .route ms } },
          .dropped m .unknown)
      | some i =>
        if s.ifStrong i then
          some ({ s with conns := upd s.conns c { s.conns c with pc := .sending i m ms } }, .none)
        else
          some
            ({ s with
                shared := (s.shared.remove (InterfaceId.of m)).2
                conns := upd s.conns c { s.conns c with pc := .route ms } },
              .dropped m .dead)
  | .sending i m ms =>
    if (s.ifaces i).rx then
      if (s.ifaces i).queue.length < ifCap then
        some
          ({ s with
              ifaces := upd s.ifaces i
                { s.ifaces i with queue := (s.ifaces i).queue ++ [(m, (s.conns c).addr)] }
              conns := upd s.conns c { s.conns c with pc := .route ms } },
            .routed i m (s.conns c).addr)
      else none
    else
      some
        ({ s with
            shared := (s.shared.remove (InterfaceId.of m)).2
            conns := upd s.conns c { s.conns c with pc := .route ms } },
          .dropped m .closed)

/-- One round of `SenderTask::commands` up to `sender.send`
(`/repo/rsomeip/src/endpoint/v1/connection.rs:397-431`). -/
def connCmd (s : State) (c : Nat) : Option (State × Obs) :=
  if (s.conns c).alive ∧ (s.conns c).out = none then
    match (s.conns c).cmds with
    | .message m :: q =>
      match outgoing m with
      | some b =>
        some ({ s with conns := upd s.conns c { s.conns c with cmds := q, out := some b } }, .none)
      | none => some ({ s with conns := upd s.conns c (s.conns c).ended }, .ended)
    | .take id i :: q =>
      some
        ({ s with
            conns := upd s.conns c
              { s.conns c with cmds := q, owned := ((s.conns c).owned.insert id i).2 } },
          .none)
    | [] =>
      if s.connStrong c then none
      else some ({ s with conns := upd s.conns c (s.conns c).ended }, .ended)
  else none

/-- `sender.send` returns (`/repo/rsomeip/src/endpoint/v1/connection.rs:419-423`). -/
def sent (s : State) (c : Nat) (ok : Bool) : Option (State × Obs) :=
  match (s.conns c).out with
  | some b =>
    if ok then
      some ({ s with conns := upd s.conns c { s.conns c with out := none } }, .wire b true)
    else some ({ s with conns := upd s.conns c (s.conns c).ended }, .wire b false)
  | none => none

/-- The stub with this number moves on to another place of `send_to`
(`/repo/rsomeip/src/endpoint/v1.rs:250-260`). -/
def State.stubAt (s : State) (k : Nat) (pc : StubPc) : Nat → Stub :=
  upd s.stubs k { s.stubs k with pc := pc }

/-- One step of `Stub::send_to` (`/repo/rsomeip/src/endpoint/v1.rs:237-260`,
`/repo/rsomeip/src/endpoint/v1/connection.rs:181-204,248-255`). -/
def stubStep (s : State) (k : Nat) : Option (State × Obs) :=
  match (s.stubs k).pc with
  | .idle => none
  | .check a m =>
    if s.peerLocked a then none
    else
      match s.peers.get a with
      | some c =>
        if s.connStrong c then some ({ s with stubs := s.stubAt k (.enter a m) }, .none)
        else if s.epStrong then some ({ s with stubs := s.stubAt k (.asking a m) }, .none)
        else some ({ s with stubs := s.stubAt k .idle }, .sendFailed .notConnected)
      | none =>
        if s.epStrong then some ({ s with stubs := s.stubAt k (.asking a m) }, .none)
        else some ({ s with stubs := s.stubAt k .idle }, .sendFailed .notConnected)
  | .asking a m =>
    if s.cmds.length < epCap then
      some
        ({ s with
            cmds := s.cmds ++ [.connect k a s.asks]
            asks := s.asks + 1
            stubs := s.stubAt k (.asked a m s.asks) },
          .none)
    else none
  | .asked _ _ _ => none
  | .share a m c =>
    if s.peerLocked a then none
    else some
      ({ s with
          peers := (s.peers.insert a c).2
          stubs := upd s.stubs k
            { s.stubs k with conns := ((s.stubs k).conns.insert a c).2, pc := .enter a m } },
        .none)
  | .enter a m =>
    if s.peerLocked a then none
    else
      match s.peers.get a with
      | some c =>
        if s.connStrong c then some ({ s with stubs := s.stubAt k (.sending a m c) }, .none)
        else
          some ({ s with peers := (s.peers.remove a).2, stubs := s.stubAt k .idle },
            .sendFailed .notConnected)
      | none => some ({ s with stubs := s.stubAt k .idle }, .sendFailed .notConnected)
  | .sending a m c =>
    if (s.conns c).alive then
      if (s.conns c).cmds.length < connCap then
        some
          ({ s with
              conns := upd s.conns c { s.conns c with cmds := (s.conns c).cmds ++ [.message m] }
              stubs := s.stubAt k .idle },
            .accepted c m)
      else none
    else
      some ({ s with peers := (s.peers.remove a).2, stubs := s.stubAt k .idle },
        .sendFailed .notConnected)

/-- `Stub::recv_from` (`/repo/rsomeip/src/endpoint/v1.rs:262-267`). -/
def stubRecv (s : State) (k : Nat) : Option (State × Obs) :=
  if (s.stubs k).alive ∧ (s.stubs k).pc = .idle then
    match (s.ifaces (s.stubs k).iface).queue with
    | (m, a) :: q =>
      some
        ({ s with
            ifaces := upd s.ifaces (s.stubs k).iface { s.ifaces (s.stubs k).iface with queue := q } },
          .message m a)
    | [] => if s.ifStrong (s.stubs k).iface then none else some (s, .closed)
  else none

/-- `Proxy::send` (`/repo/rsomeip/src/endpoint/v1.rs:294-296`). -/
def proxySend (s : State) (p : Nat) (m : Msg) : Option (State × Obs) :=
  if (s.proxies p).alive then
    if (s.conns (s.proxies p).conn).alive then
      if (s.conns (s.proxies p).conn).cmds.length < connCap then
        some
          ({ s with
              conns := upd s.conns (s.proxies p).conn
                { s.conns (s.proxies p).conn with
                  cmds := (s.conns (s.proxies p).conn).cmds ++ [.message m] } },
            .accepted (s.proxies p).conn m)
      else none
    else some (s, .sendFailed .notConnected)
  else none

/-- One round of the loop of `Proxy::recv` (`/repo/rsomeip/src/endpoint/v1.rs:299-314`). -/
def proxyRecv (s : State) (p : Nat) : Option (State × Obs) :=
  if (s.proxies p).alive then
    match (s.ifaces (s.proxies p).iface).queue with
    | (m, a) :: q =>
      some
        ({ s with
            ifaces := upd s.ifaces (s.proxies p).iface
              { s.ifaces (s.proxies p).iface with queue := q } },
          if (s.proxies p).remote = a then .reply m else .skipped m a)
    | [] => if s.ifStrong (s.proxies p).iface then none else some (s, .closed)
  else none

/-- Key `k` is put into the bucket of key `k'`, in the map of `Interfaces` or `Connections`
(`/repo/rsomeip/src/endpoint/v1/interface.rs:115`, `connection.rs:156`). -/
def rehash {κ : Type} [DecidableEq κ] (f : κ → κ) (k k' : κ) : κ → κ :=
  fun x => if x = k then f k' else f x

/-- One step of the system; `none` if the action cannot happen now. `serve`, `proxy`, `upgrade`:
`/repo/rsomeip/src/endpoint/v1.rs:158-179,200-204`. -/
def step (dg : Bool) (s : State) : Action → Option (State × Obs)
  | .serve id =>
    if s.handles ∧ s.cmds.length < epCap then
      some ({ s with cmds := s.cmds ++ [.serve id] }, .none)
    else none
  | .proxy id a =>
    if s.handles ∧ s.cmds.length < epCap then
      some ({ s with cmds := s.cmds ++ [.proxy id a] }, .none)
    else none
  | .close => if s.handles then some ({ s with handles := false }, .none) else none
  | .upgrade =>
    if s.epStrong then some ({ s with handles := true }, .upgraded true)
    else some (s, .upgraded false)
  | .ep ok => ep dg s ok
  | .accept l a =>
    if (s.liss l).alive ∧ (s.liss l).pc = .wait then
      some
        ({ s with
            conns := upd s.conns s.connCount (newConn a)
            connCount := s.connCount + 1
            liss := upd s.liss l { s.liss l with pc := .share s.connCount } },
          .opened s.connCount a)
    else none
  | .acceptNone l =>
    if (s.liss l).alive ∧ (s.liss l).pc = .wait then
      some ({ s with liss := upd s.liss l deadLis }, .ended)
    else none
  | .lisShare l => lisShare s l
  | .lisCmd l => lisCmd s l
  | .packet c r => packet s c r
  | .route c => route s c
  | .connCmd c => connCmd s c
  | .sent c ok => sent s c ok
  | .stubSend k a m =>
    if (s.stubs k).alive ∧ (s.stubs k).pc = .idle then
      some ({ s with stubs := s.stubAt k (.check a m) }, .none)
    else none
  | .stubStep k => stubStep s k
  | .stubCancel k =>
    if (s.stubs k).alive then some ({ s with stubs := s.stubAt k .idle }, .none) else none
  | .stubRecv k => stubRecv s k
  | .dropStub k =>
    if (s.stubs k).alive then
      some
        ({ s with
            ifaces := upd s.ifaces (s.stubs k).iface (s.ifaces (s.stubs k).iface).drop
            stubs := upd s.stubs k
              { s.stubs k with alive := false, conns := .empty, pc := .idle } },
          .none)
    else none
  | .proxySend p m => proxySend s p m
  | .proxyRecv p => proxyRecv s p
  | .dropProxy p =>
    if (s.proxies p).alive then
      some
        ({ s with
            ifaces := upd s.ifaces (s.proxies p).iface (s.ifaces (s.proxies p).iface).drop
            proxies := upd s.proxies p { s.proxies p with alive := false } },
          .none)
    else none
  | .hashId id id' => some ({ s with ifBucket := rehash s.ifBucket id id' }, .none)
  | .hashAddr a b => some ({ s with peerBucket := rehash s.peerBucket a b }, .none)

end Rsomeip.Rt.Ep
