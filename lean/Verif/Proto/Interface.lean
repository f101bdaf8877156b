import Verif.Proto.Message
import Verif.Support.Map

/-! # Model of `/repo/rsomeip-proto/src/interface.rs` -/

namespace Rsomeip.Proto

/-- `InterfaceType` (`/repo/rsomeip-proto/src/interface.rs:316-323`). -/
inductive InterfaceType where
  | stub
  | proxy
  deriving Repr, DecidableEq

/-- `MethodType` (`/repo/rsomeip-proto/src/interface.rs:328-336`). -/
inductive MethodType where
  | procedure
  | method
  | event
  deriving Repr, DecidableEq

/-- `Direction` (`/repo/rsomeip-proto/src/interface.rs:339-345`). -/
inductive Direction where
  | incoming
  | outgoing
  deriving Repr, DecidableEq

/-- `MessageError` (`/repo/rsomeip-proto/src/interface.rs:362-368`). -/
inductive MessageError where
  | invalid (c : ReturnCode)
  | dropped (c : ReturnCode)
  deriving Repr, DecidableEq

/-- `MessageError::invalid_or_dropped` (`/repo/rsomeip-proto/src/interface.rs:376-382`). -/
def MessageError.invalidOrDropped (t : MessageType) (c : ReturnCode) : MessageError :=
  if t = .request then .invalid c else .dropped c

/-- `Interface` (`/repo/rsomeip-proto/src/interface.rs:19-27`). -/
structure Interface where
  version : InterfaceVersion
  flavor : InterfaceType
  methods : Map MethodId MethodType
  deriving Repr, DecidableEq

namespace Interface

/-- `Interface::default`, derived: version 0, stub, no methods
(`/repo/rsomeip-proto/src/interface.rs:19,316-323`). -/
def default : Interface := ⟨⟨0⟩, .stub, .empty⟩

/-- `Interface::into_stub` (`/repo/rsomeip-proto/src/interface.rs:44-47`). -/
def intoStub (i : Interface) : Interface := { i with flavor := .stub }

/-- `Interface::into_proxy` (`/repo/rsomeip-proto/src/interface.rs:63-66`). -/
def intoProxy (i : Interface) : Interface := { i with flavor := .proxy }

/-- `Interface::with_version` (`/repo/rsomeip-proto/src/interface.rs:80-83`). -/
def withVersion (i : Interface) (v : InterfaceVersion) : Interface := { i with version := v }

/-- `Interface::insert` (`/repo/rsomeip-proto/src/interface.rs:156-158`). -/
def insert (i : Interface) (k : MethodId) (t : MethodType) : Option MethodType × Interface :=
  ((i.methods.insert k t).1, { i with methods := (i.methods.insert k t).2 })

/-- `Interface::remove` (`/repo/rsomeip-proto/src/interface.rs:172-174`). -/
def remove (i : Interface) (k : MethodId) : Option MethodType × Interface :=
  ((i.methods.remove k).1, { i with methods := (i.methods.remove k).2 })

/-- `Interface::get` (`/repo/rsomeip-proto/src/interface.rs:188-190`). -/
def get (i : Interface) (k : MethodId) : Option MethodType := i.methods.get k

/-- `Interface::get_mut` and an assignment through the reference
(`/repo/rsomeip-proto/src/interface.rs:204-206`). -/
def modify (i : Interface) (k : MethodId) (f : MethodType → MethodType) :
    Option MethodType × Interface :=
  ((i.methods.modify k f).1, { i with methods := (i.methods.modify k f).2 })

/-- `Interface::with_method` (`/repo/rsomeip-proto/src/interface.rs:99-102`). -/
def withMethod (i : Interface) (k : MethodId) : Interface := (i.insert k .method).2

/-- `Interface::with_procedure` (`/repo/rsomeip-proto/src/interface.rs:118-121`). -/
def withProcedure (i : Interface) (k : MethodId) : Interface := (i.insert k .procedure).2

/-- `Interface::with_event` (`/repo/rsomeip-proto/src/interface.rs:137-140`). -/
def withEvent (i : Interface) (k : MethodId) : Interface := (i.insert k .event).2

/-- `Interface::check` (`/repo/rsomeip-proto/src/interface.rs:239-310`). -/
def check {β : Type} (i : Interface) (m : Message β) (d : Direction) : Except MessageError Unit :=
  -- lines 245-247
  if m.interface ≠ i.version then
    .error (.invalidOrDropped m.messageType .wrongInterfaceVersion)
  else
    -- lines 250-252
    match i.methods.get m.method with
    | none => .error (.invalidOrDropped m.messageType .unknownMethod)
    | some k =>
      match d with
      -- lines 256-281
      | .incoming =>
        match i.flavor, k with
        | .stub, .procedure =>
          if m.messageType ≠ .requestNoReturn then .error (.dropped .wrongMessageType) else .ok ()
        | .stub, .method =>
          if m.messageType ≠ .request then .error (.invalid .wrongMessageType) else .ok ()
        | .proxy, .method =>
          if ¬ (m.messageType = .response ∨ m.messageType = .error) then
            .error (.dropped .wrongMessageType) else .ok ()
        | .proxy, .event =>
          if m.messageType ≠ .notification then .error (.dropped .wrongMessageType) else .ok ()
        | _, _ => .error (.dropped .wrongMessageType)
      -- lines 282-307
      | .outgoing =>
        match i.flavor, k with
        | .stub, .method =>
          if ¬ (m.messageType = .response ∨ m.messageType = .error) then
            .error (.invalid .wrongMessageType) else .ok ()
        | .stub, .event =>
          if m.messageType ≠ .notification then .error (.invalid .wrongMessageType) else .ok ()
        | .proxy, .procedure =>
          if m.messageType ≠ .requestNoReturn then .error (.invalid .wrongMessageType) else .ok ()
        | .proxy, .method =>
          if m.messageType ≠ .request then .error (.invalid .wrongMessageType) else .ok ()
        | _, _ => .error (.invalid .wrongMessageType)

end Interface

end Proto

end Rsomeip
