import Verif.Rt.TcpNode

/-!
# A TCP socket on Linux

`TcpSocket::connect` and `TcpSocket::listen` (`/repo/rsomeip/src/socket/tcp.rs:99-119`) make a new
socket of the operating system each time and bind it to the same local address. Here the calls are
performed one by one on a table of the sockets that are bound to this address, and the endpoint of
`Rt/TcpNode` runs on top of it.

The rules for `bind`, `listen` and `connect` are those of Linux, from its manual:
* socket(7), `SO_REUSEADDR`: "a socket may bind, except when there is an active listening socket bound
  to the address"; without the option (on both sockets) the address must not be in use at all.
* listen(2): `EADDRINUSE`, "another socket is already listening on the same port".
* connect(2): two connections cannot have the same local and remote address (`EADDRNOTAVAIL`).

Simplified: the local address has a port of its own (not 0); no other program uses the address;
`connect` and `listen` take no time (nothing else can make the endpoint listen while it connects, since
one task does both). Every call may also fail for any other reason.
-/

namespace Rsomeip.Rt.TcpOs

/-- What a socket of the operating system is used for (`/repo/rsomeip/src/socket/tcp.rs:103-106,114-117`). -/
inductive Role where
  | fresh
  | bound
  | listening
  | connected (a : Addr)
  deriving DecidableEq

/-- A socket of the operating system: `net::TcpSocket`, `net::TcpListener`, `net::TcpStream`
(`/repo/rsomeip/src/socket/tcp.rs:100-106,111-117`), and whether `SO_REUSEADDR` is set. -/
structure Sock where
  reuse : Bool
  role : Role
  deriving DecidableEq

/-- Why a call fails: the errors that the `?` of `/repo/rsomeip/src/socket/tcp.rs:103-106,114-117` pass on. -/
inductive Err where
  /-- `EADDRINUSE`. -/
  | inUse
  /-- `EADDRNOTAVAIL`. -/
  | notAvailable
  /-- Anything else: the network, the remote, limits. -/
  | other
  deriving DecidableEq

/-- `net::TcpSocket::new_v4`, `new_v6` (`/repo/rsomeip/src/socket/tcp.rs:100-103,111-114`). -/
def newSocket (ok : Bool) : Except Err Sock :=
  if ok then .ok ⟨false, .fresh⟩ else .error .other

/-- `set_reuseaddr(true)` (`/repo/rsomeip/src/socket/tcp.rs:104,115`). -/
def setReuse (k : Sock) : Sock := { k with reuse := true }

/-- The socket `k` cannot be bound while `o` is (`SO_REUSEADDR` in socket(7); for
`/repo/rsomeip/src/socket/tcp.rs:105,116`). -/
def conflict (k o : Sock) : Bool :=
  match o.role with
  | .fresh => false
  | .listening => true
  | _ => !(k.reuse && o.reuse)

/-- `bind` to the socket's address (`/repo/rsomeip/src/socket/tcp.rs:105,116`), while the sockets `t` are
bound to it. -/
def bind (t : List Sock) (k : Sock) : Except Err Sock :=
  if t.any (conflict k) then .error .inUse else .ok { k with role := .bound }

/-- `net::TcpSocket::listen` (`/repo/rsomeip/src/socket/tcp.rs:117`). -/
def listen (t : List Sock) (k : Sock) : Except Err Sock :=
  if t.any (fun o => o.role = .listening) then .error .inUse else .ok { k with role := .listening }

/-- `net::TcpSocket::connect` (`/repo/rsomeip/src/socket/tcp.rs:106`). -/
def connect (t : List Sock) (k : Sock) (a : Addr) : Except Err Sock :=
  if t.any (fun o => o.role = .connected a) then .error .notAvailable
  else .ok { k with role := .connected a }

/-- `TcpSocket::connect` (`/repo/rsomeip/src/socket/tcp.rs:99-108`); if a call fails, the new socket is
dropped. `ok`: no call fails for another reason. -/
def tcpConnect (t : List Sock) (a : Addr) (ok : Bool) : Except Err Sock := do
  let k ← newSocket ok
  let k ← bind t (setReuse k)
  connect t k a

/-- `TcpSocket::listen` (`/repo/rsomeip/src/socket/tcp.rs:110-119`). -/
def tcpListen (t : List Sock) (ok : Bool) : Except Err Sock := do
  let k ← newSocket ok
  let k ← bind t (setReuse k)
  listen t k

/-- The task that owns a socket: a listener task (`/repo/rsomeip/src/endpoint/v1/listener.rs:156-165,201-206`)
or a connection task (`/repo/rsomeip/src/endpoint/v1/connection.rs:300-309,366-376`). -/
inductive Owner where
  | lis (l : Nat)
  | conn (c : Nat)
  deriving DecidableEq

/-- The task runs; when it ends it drops its socket (`/repo/rsomeip/src/endpoint/v1/listener.rs:141-149`,
`connection.rs:285-293`). -/
def running (e : Ep.State) : Owner → Bool
  | .lis l => (e.liss l).alive
  | .conn c => (e.conns c).alive

/-- An endpoint on a TCP socket (`Rt/TcpNode`) and the sockets of the operating system that are bound to
its address (`/repo/rsomeip/src/socket/tcp.rs:80-83`). -/
structure State where
  node : TcpNode.State
  socks : List (Owner × Sock)

/-- `TcpSocket::new` makes no socket yet (`/repo/rsomeip/src/socket/tcp.rs:85-90`). -/
def init : State := ⟨TcpNode.init, []⟩

/-- The sockets bound to the address (`/repo/rsomeip/src/socket/tcp.rs:82`). -/
def State.table (s : State) : List Sock := s.socks.map Prod.snd

/-- A step of the endpoint; it may get a new socket, and those of tasks that end are closed
(`/repo/rsomeip/src/endpoint/v1.rs:112-126`). -/
def go (s : State) (x : TcpNode.Action) (new : List (Owner × Sock)) :
    Option (State × TcpNode.Obs) :=
  match TcpNode.step s.node x with
  | some (n, o) => some (⟨n, (new ++ s.socks).filter fun y => running n.ep y.1⟩, o)
  | none => none

/-- A step of the endpoint in which the system call succeeded (`.ok`) or not
(`/repo/rsomeip/src/endpoint/v1.rs:464-471,506-515`). -/
def after (s : State) (x : TcpNode.Action) (w : Owner) : Except Err Sock → Option (State × TcpNode.Obs)
  | .ok k => go s x [(w, k)]
  | .error _ => none

/-- The endpoint has no listener it could use and calls `listen`
(`listener_or_listen`, `/repo/rsomeip/src/endpoint/v1.rs:450-457`). -/
def mustListen (e : Ep.State) : Bool :=
  match e.pc, e.listener with
  | .serveListen _, some l => !e.lisStrong l
  | .serveListen _, none => true
  | _, _ => false

/-- One step (`/repo/rsomeip/src/endpoint/v1.rs:367-529`, `/repo/rsomeip/src/socket/tcp.rs:99-119,202-209`).
`.ep true`: the calls of the operating system succeed, if this is possible now; `.ep false`: they fail. -/
def step (s : State) (x : TcpNode.Action) : Option (State × TcpNode.Obs) :=
  match x with
  | .app (.ep true) =>
    match s.node.ep.pc with
    | .proxyConnect _ a => after s x (.conn s.node.ep.connCount) (tcpConnect s.table a true)
    | _ =>
      if mustListen s.node.ep then after s x (.lis s.node.ep.lisCount) (tcpListen s.table true)
      else go s x []
  | .app (.accept _ a) => after s x (.conn s.node.ep.connCount) (connect s.table ⟨true, .bound⟩ a)
  | _ => go s x []

end Rsomeip.Rt.TcpOs
