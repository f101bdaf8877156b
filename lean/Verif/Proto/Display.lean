import Verif.Proto.Message
import Verif.Someip.Interface

/-!
# Model of the `Display` implementations

Strings are lists of characters. `core::fmt` is not part of the repository; its zero-padded
lower-case hexadecimal format, the only one used, is modelled by `hex`.
-/

namespace Rsomeip.Display

/-- One lower-case hexadecimal digit (`/repo/rsomeip-proto/src/primitives.rs:88`). -/
def digit (n : Nat) : Char :=
  if n < 10 then Char.ofNat (48 + n) else Char.ofNat (87 + n)

/-- Hexadecimal digits without leading zeros, as written by `{:x?}`
(`/repo/rsomeip-proto/src/primitives.rs:88,94`). -/
def digits (n : Nat) : List Char :=
  if n < 16 then [digit n] else digits (n / 16) ++ [digit (n % 16)]
  decreasing_by omega

/-- `{:0kx?}` of an unsigned integer, used with `k = 4` for `u16` and `k = 2` for `u8`
(`/repo/rsomeip-proto/src/primitives.rs:78-96`): padded with zeros to width `k`. -/
def hex (k n : Nat) : List Char := List.replicate (k - (digits n).length) '0' ++ digits n

/-- `Display for ServiceId`, `MethodId`, `ClientId`, `SessionId`
(`/repo/rsomeip-proto/src/primitives.rs:78-90`). -/
def u16 (x : UInt16) : List Char := hex 4 x.toNat

/-- `Display for ProtocolVersion`, `InterfaceVersion`, `MessageTypeField`
(`/repo/rsomeip-proto/src/primitives.rs:78-96`), and `{:02x?}` of a `u8`. -/
def u8 (x : UInt8) : List Char := hex 2 x.toNat

/-- `Display for MessageId` (`/repo/rsomeip-proto/src/primitives.rs:261-277`). -/
def messageId (i : Proto.MessageId) : List Char := u16 i.service.val ++ ['.'] ++ u16 i.method.val

/-- `Display for RequestId` (`/repo/rsomeip-proto/src/primitives.rs:527-543`). -/
def requestId (i : Proto.RequestId) : List Char := u16 i.client.val ++ ['.'] ++ u16 i.session.val

/-- `Display for Header` (`/repo/rsomeip-proto/src/message.rs:858-883`). -/
def header (h : Proto.Header) : List Char :=
  u16 h.client.val ++ ['.'] ++ u16 h.session.val ++ ['.'] ++ u8 h.messageType.val ++ ['.'] ++
    u8 h.returnCode.asU8

/-- `Display for GenericMessage<H, B>` (`/repo/rsomeip-proto/src/message.rs:617-636`); `f` displays
the header. -/
def generic {η β : Type} (f : η → List Char) (m : Proto.GenericMessage η β) : List Char :=
  u16 m.service.val ++ ['.'] ++ u16 m.method.val ++ ['.'] ++ f m.header

/-- `{:?}` of a `u8` (`/repo/rsomeip-proto/src/primitives.rs:765,890`), as written by `core::fmt`:
decimal, without leading zeros. -/
def decimal (x : UInt8) : List Char := (Nat.repr x.toNat).toList

/-- `{:?}` of a variant of an enum with a derived `Debug`
(`/repo/rsomeip-proto/src/primitives.rs:765,890`): its name, and its value in parentheses if it has one.
-/
def debug (name : String) : Option UInt8 → List Char
  | none => name.toList
  | some x => name.toList ++ '(' :: (decimal x ++ [')'])

/-- `Display for MessageType` (`/repo/rsomeip-proto/src/primitives.rs:754-767`): the derived `Debug`
of the enum (`/repo/rsomeip-proto/src/primitives.rs:676-691`). -/
def messageType : Proto.MessageType → List Char
  | .request => debug "Request" none
  | .requestNoReturn => debug "RequestNoReturn" none
  | .notification => debug "Notification" none
  | .response => debug "Response" none
  | .error => debug "Error" none
  | .unknown x => debug "Unknown" (some x)

/-- `Display for ReturnCode` (`/repo/rsomeip-proto/src/primitives.rs:879-892`): the derived `Debug`
of the enum (`/repo/rsomeip-proto/src/primitives.rs:770-810`). -/
def returnCode : Proto.ReturnCode → List Char
  | .ok => debug "Ok" none
  | .notOk => debug "NotOk" none
  | .unknownService => debug "UnknownService" none
  | .unknownMethod => debug "UnknownMethod" none
  | .notReady => debug "NotReady" none
  | .notReachable => debug "NotReachable" none
  | .timeout => debug "Timeout" none
  | .wrongProtocolVersion => debug "WrongProtocolVersion" none
  | .wrongInterfaceVersion => debug "WrongInterfaceVersion" none
  | .malformedMessage => debug "MalformedMessage" none
  | .wrongMessageType => debug "WrongMessageType" none
  | .e2eRepeated => debug "E2eRepeated" none
  | .e2eWrongSequence => debug "E2eWrongSequence" none
  | .e2e => debug "E2e" none
  | .e2eNotAvailable => debug "E2eNotAvailable" none
  | .e2eNoNewData => debug "E2eNoNewData" none
  | .reserved x => debug "Reserved" (some x)
  | .other x => debug "Other" (some x)

/-- `Display for someip::Message` (`/repo/rsomeip/src/someip.rs:317-344`). -/
def someip {β : Type} (m : Someip.Message β) : List Char :=
  ['M', '.'] ++ u16 m.service ++ ['.'] ++ u16 m.method ++ ['.'] ++ u16 m.client ++ ['.'] ++
    u16 m.session ++ ['.'] ++ u8 m.messageType.asU8 ++ ['.'] ++ u8 m.returnCode.asU8

/-- `Display for InterfaceId` (`/repo/rsomeip/src/endpoint.rs:152-166`). -/
def interfaceId (i : Someip.InterfaceId) : List Char :=
  ['I', '.'] ++ u16 i.service ++ ['.'] ++ u8 i.version

end Rsomeip.Display
