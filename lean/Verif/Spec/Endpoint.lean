import Verif.Rt.Endpoint
import Verif.Spec.Frames

/-! # What can be read off an execution of an endpoint -/

namespace Rsomeip.Spec.Ep

open Rsomeip.Rt Rsomeip.Rt.Ep Rsomeip.Someip

/-- A history: what happened, one after the other. -/
abbrev Trace := List (Action × Obs)

/-- A message is for an interface: service id and interface version are the interface's. -/
def For (m : Msg) (id : InterfaceId) : Prop := m.service = id.service ∧ m.interface = id.version

/-- Something happened at some point. -/
def Shown (tr : Trace) (o : Obs) : Prop := ∃ x, (x, o) ∈ tr

/-- The peer at address `a` sent message `m`: a connection to `a` was opened, and a packet that
contains `m` was received from it. -/
def Sent (tr : Trace) (a : Addr) (m : Msg) : Prop :=
  ∃ c b ms, Shown tr (.opened c a) ∧ (.packet c (.packet b), .none) ∈ tr ∧ Frames b ms ∧ m ∈ ms

open Classical in
/-- The messages a packet contains; none if it is malformed. -/
noncomputable def contents (b : Bytes) : List Msg :=
  if h : ∃ ms, Frames b ms then choose h else []

/-- The messages received from connection `c`, in order. -/
noncomputable def heard (c : Nat) (tr : Trace) : List Msg :=
  tr.flatMap fun e => match e.1 with
    | .packet d (.packet b) => if d = c then contents b else []
    | _ => []

/-- The messages connection `c` has dealt with, in order: put into a channel or dropped. -/
def settled (c : Nat) (tr : Trace) : List Msg :=
  tr.filterMap fun e => match e with
    | (.route d, .routed _ m _) => if d = c then some m else none
    | (.route d, .dropped m _) => if d = c then some m else none
    | _ => none

/-- The messages connection `c` put into channel `i`, in order. -/
def given (c i : Nat) (tr : Trace) : List Msg :=
  tr.filterMap fun e => match e with
    | (.route d, .routed j m _) => if d = c ∧ j = i then some m else none
    | _ => none

/-- What was put into channel `i`, in order. -/
def routedTo (i : Nat) (tr : Trace) : List (Msg × Addr) :=
  tr.filterMap fun e => match e.2 with
    | .routed j m a => if j = i then some (m, a) else none
    | _ => none

/-- What stub `k` returned, in order. -/
def stubGot (k : Nat) (tr : Trace) : List (Msg × Addr) :=
  tr.filterMap fun e => match e with
    | (.stubRecv j, .message m a) => if j = k then some (m, a) else none
    | _ => none

/-- What proxy `p` returned, in order. -/
def proxyGot (p : Nat) (tr : Trace) : List Msg :=
  tr.filterMap fun e => match e with
    | (.proxyRecv j, .reply m) => if j = p then some m else none
    | _ => none

/-- The event answers a request to serve interface `id` or to make a proxy for it. -/
def Answers (id : InterfaceId) (o : Obs) : Prop :=
  (∃ k i, o = .serving k i id) ∨ (∃ p i a, o = .proxying p i id a) ∨
    (∃ w, o = .serveFailed id w) ∨ ∃ a w, o = .proxyFailed id a w

/-- The event says that interface `id` exists already. -/
def Refused (id : InterfaceId) (o : Obs) : Prop :=
  o = .serveFailed id .exists ∨ ∃ a, o = .proxyFailed id a .exists

/-- The event hands out a stub or a proxy for interface `id`, which receives through channel `i`. -/
def Created (i : Nat) (id : InterfaceId) (o : Obs) : Prop :=
  (∃ k, o = .serving k i id) ∨ ∃ p a, o = .proxying p i id a

/-- A call of `Endpoint::serve` or `Endpoint::proxy`. -/
inductive Request where
  | serve (id : InterfaceId)
  | proxy (id : InterfaceId) (a : Addr)
  deriving DecidableEq

/-- The calls made, in order. -/
def requests (tr : Trace) : List Request :=
  tr.filterMap fun e => match e.1 with
    | .serve id => some (.serve id)
    | .proxy id a => some (.proxy id a)
    | _ => none

/-- The calls that have returned, in order. -/
def answered (tr : Trace) : List Request :=
  tr.filterMap fun e => match e.2 with
    | .serving _ _ id => some (.serve id)
    | .serveFailed id _ => some (.serve id)
    | .proxying _ _ id a => some (.proxy id a)
    | .proxyFailed id a _ => some (.proxy id a)
    | _ => none

/-- The user has an `Endpoint`: the one they started with or got from `upgrade` was not dropped. -/
def held (tr : Trace) : Bool :=
  tr.foldl (fun r e => match e with
    | (.close, _) => false
    | (.upgrade, .upgraded true) => true
    | _ => r) true

/-- The last call of `send_to` of stub `k`: destination and message. -/
def lastCall (k : Nat) (tr : Trace) : Option (Addr × Msg) :=
  tr.foldl (fun r e => match e.1 with
    | .stubSend j a m => if j = k then some (a, m) else r
    | _ => r) none

/-- A connection to `a` that somebody holds a handle of is registered. -/
def Registered (s : State) (a : Addr) (c : Nat) : Prop :=
  s.peers.get a = some c ∧ s.connStrong c = true

/-- At some point of the history, no connection to `a` was registered. -/
def Unregistered (dg : Bool) (tr : Trace) (a : Addr) : Prop :=
  ∃ t u s, tr = t ++ u ∧ Exec (step dg) init t s ∧ ∀ c, ¬ Registered s a c

/-- The messages connection `c` was asked to send, in order: those for which `send` or `send_to`
returned `Ok`. -/
def accepted (c : Nat) (tr : Trace) : List Msg :=
  tr.filterMap fun e => match e.2 with
    | .accepted d m => if d = c then some m else none
    | _ => none

/-- What the socket of connection `c` was given to send, in order. -/
def onWire (c : Nat) (tr : Trace) : List Bytes :=
  tr.filterMap fun e => match e with
    | (.sent d _, .wire b _) => if d = c then some b else none
    | _ => none

/-- How a message looks on the wire; one that is too long for its length field is cut off after the
message id (C64). -/
def wireForm (m : Msg) : Bytes :=
  if 8 + m.payload.length < 2 ^ 32 then frame m else be 2 m.service.toNat ++ be 2 m.method.toNat

end Rsomeip.Spec.Ep
