import Verif.Proto.Interface

/-! # Model of `/repo/rsomeip-proto/src/endpoint.rs` -/

namespace Rsomeip.Proto

/-- `EndpointError` (`/repo/rsomeip-proto/src/endpoint.rs:275-297`). -/
inductive EndpointError (β : Type) where
  | invalidData (e : DeErr)
  | invalidInput (e : SerErr)
  | invalidMessage (message : Message β) (returnCode : ReturnCode)
  | messageDropped (message : Message β) (returnCode : ReturnCode)
  | custom (s : String)

/-- `EndpointError::invalid_or_dropped` (`/repo/rsomeip-proto/src/endpoint.rs:305-317`). -/
def EndpointError.invalidOrDropped {β : Type} (m : Message β) (c : ReturnCode) : EndpointError β :=
  if m.messageType = .request then .invalidMessage m c else .messageDropped m c

/-- What a call (`/repo/rsomeip-proto/src/endpoint.rs:136,222`) does: it returns a value, panics or never
returns. -/
inductive Run (α : Type) where
  | done (a : α)
  | panic
  | diverge

/-- `Endpoint` (`/repo/rsomeip-proto/src/endpoint.rs:11-14`). -/
structure Endpoint where
  interfaces : Map ServiceId Interface
  deriving Repr, DecidableEq

namespace Endpoint

/-- `Endpoint::new` (`/repo/rsomeip-proto/src/endpoint.rs:19-21`). -/
def new : Endpoint := ⟨.empty⟩

/-- `Endpoint::insert` (`/repo/rsomeip-proto/src/endpoint.rs:52-54`). -/
def insert (e : Endpoint) (k : ServiceId) (i : Interface) : Option Interface × Endpoint :=
  ((e.interfaces.insert k i).1, ⟨(e.interfaces.insert k i).2⟩)

/-- `Endpoint::with_interface` (`/repo/rsomeip-proto/src/endpoint.rs:34-37`). -/
def withInterface (e : Endpoint) (k : ServiceId) (i : Interface) : Endpoint := (e.insert k i).2

/-- `Endpoint::remove` (`/repo/rsomeip-proto/src/endpoint.rs:67-69`). -/
def remove (e : Endpoint) (k : ServiceId) : Option Interface × Endpoint :=
  ((e.interfaces.remove k).1, ⟨(e.interfaces.remove k).2⟩)

/-- `Endpoint::get` (`/repo/rsomeip-proto/src/endpoint.rs:82-84`). -/
def get (e : Endpoint) (k : ServiceId) : Option Interface := e.interfaces.get k

/-- `Endpoint::get_mut` and an assignment through the reference
(`/repo/rsomeip-proto/src/endpoint.rs:97-99`). -/
def modify (e : Endpoint) (k : ServiceId) (f : Interface → Interface) :
    Option Interface × Endpoint :=
  ((e.interfaces.modify k f).1, ⟨(e.interfaces.modify k f).2⟩)

variable {β : Type}

/-- The part of `poll` after decoding (`/repo/rsomeip-proto/src/endpoint.rs:144-180`). -/
def accept (e : Endpoint) (m : Message β) : Except (EndpointError β) (Message β) :=
  if m.protocol ≠ ⟨1⟩ then
    .error (.invalidOrDropped m .wrongProtocolVersion)
  else
    match e.interfaces.get m.service with
    | none => .error (.invalidOrDropped m .unknownService)
    | some i =>
      match i.check m .incoming with
      | .ok () => .ok m
      | .error (.invalid c) => .error (.invalidMessage m c)
      | .error (.dropped c) => .error (.messageDropped m c)

/-- `Endpoint::poll` for payloads decoded by `d` (`/repo/rsomeip-proto/src/endpoint.rs:136-181`).
The second component is the rest of the buffer. -/
def poll (d : Dec β) (e : Endpoint) (b : Bytes) :
    Run (Except (EndpointError β) (Message β)) × Bytes :=
  match Message.de d b with
  | (.ok m, r) => (.done (e.accept m), r)
  | (.err x, r) => (.done (.error (.invalidData x)), r)
  | (.panic, r) => (.panic, r)
  | (.diverge, r) => (.diverge, r)

/-- `Endpoint::process` for payloads encoded by `s`
(`/repo/rsomeip-proto/src/endpoint.rs:222-271`). The second component is the buffer afterwards. -/
def process (s : Ser β) (e : Endpoint) (m : Message β) (buf : BufMut) :
    Run (Except (EndpointError β) Nat) × BufMut :=
  if m.protocol ≠ ⟨1⟩ then
    (.done (.error (.invalidMessage m .wrongProtocolVersion)), buf)
  else
    match e.interfaces.get m.service with
    | none => (.done (.error (.invalidMessage m .unknownService)), buf)
    | some i =>
      match i.check m .outgoing with
      | .error (.invalid c) => (.done (.error (.invalidMessage m c)), buf)
      | .error (.dropped c) => (.done (.error (.messageDropped m c)), buf)
      | .ok () =>
        match (Message.ser s).serialize m buf with
        | (.ok n, buf') => (.done (.ok n), buf')
        | (.err x, buf') => (.done (.error (.invalidInput x)), buf')
        | (.panic, buf') => (.panic, buf')

end Endpoint

end Rsomeip.Proto
