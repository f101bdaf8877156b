import Verif.Bytes.Codec

/-!
# SOME/IP primitives

Transcription of `/repo/rsomeip-proto/src/primitives.rs`.
-/

namespace Rsomeip

/-- `impl Serialize` by conversion to another type (`self.0.serialize(buffer)`,
`/repo/rsomeip-proto/src/primitives.rs:60-68`, `:243-251`, `:736-744`). -/
def Ser.via {α β : Type} (s : Ser β) (f : α → β) : Ser α where
  serialize v := s.serialize (f v)
  sizeHint v := s.sizeHint (f v)

/-- `<repr>::deserialize(buffer).map(f)` (`/repo/rsomeip-proto/src/primitives.rs:70-76`,
`:256-258`, `:749-751`). -/
def Dec.map {α β : Type} (d : Dec α) (f : α → β) : Dec β := do
  let x ← d
  pure (f x)

namespace Proto

/-- `ServiceId` (`/repo/rsomeip-proto/src/primitives.rs:104-107`); `new`/`as_u16`/`From`
(`:27-58`) are the constructor and projection. -/
structure ServiceId where
  val : UInt16
  deriving DecidableEq, Repr

/-- `MethodId` (`/repo/rsomeip-proto/src/primitives.rs:126-129`). -/
structure MethodId where
  val : UInt16
  deriving DecidableEq, Repr

/-- `ClientId` (`/repo/rsomeip-proto/src/primitives.rs:284-287`). -/
structure ClientId where
  val : UInt16
  deriving DecidableEq, Repr

/-- `SessionId` (`/repo/rsomeip-proto/src/primitives.rs:345-348`). -/
structure SessionId where
  val : UInt16
  deriving DecidableEq, Repr

/-- `ProtocolVersion` (`/repo/rsomeip-proto/src/primitives.rs:546-549`). -/
structure ProtocolVersion where
  val : UInt8
  deriving DecidableEq, Repr

/-- `InterfaceVersion` (`/repo/rsomeip-proto/src/primitives.rs:562-565`). -/
structure InterfaceVersion where
  val : UInt8
  deriving DecidableEq, Repr

/-- `MessageTypeField` (`/repo/rsomeip-proto/src/primitives.rs:568-571`). -/
structure MessageTypeField where
  val : UInt8
  deriving DecidableEq, Repr

/-- `MessageId` (`/repo/rsomeip-proto/src/primitives.rs:134-140`). -/
structure MessageId where
  service : ServiceId
  method : MethodId
  deriving DecidableEq, Repr

/-- `RequestId` (`/repo/rsomeip-proto/src/primitives.rs:402-408`). -/
structure RequestId where
  client : ClientId
  session : SessionId
  deriving DecidableEq, Repr

namespace MessageId

/-- `MessageId::with_service` (`/repo/rsomeip-proto/src/primitives.rs:172-175`). -/
def withService (i : MessageId) (value : ServiceId) : MessageId := { i with service := value }

/-- `MessageId::with_method` (`/repo/rsomeip-proto/src/primitives.rs:189-192`). -/
def withMethod (i : MessageId) (value : MethodId) : MessageId := { i with method := value }

/-- `MessageId::from_u32` (`/repo/rsomeip-proto/src/primitives.rs:207-211`), also
`From<u32>` (`:231-235`). -/
def fromU32 (value : UInt32) : MessageId :=
  ⟨⟨(value >>> 16).toUInt16⟩, ⟨(value &&& 0xffff).toUInt16⟩⟩

/-- `MessageId::as_u32` (`/repo/rsomeip-proto/src/primitives.rs:225-228`), also
`From<MessageId> for u32` (`:237-241`). -/
def asU32 (i : MessageId) : UInt32 :=
  (i.service.val.toUInt32 <<< 16) ||| i.method.val.toUInt32

/-- `#[derive(Ord)]` on `MessageId` (`/repo/rsomeip-proto/src/primitives.rs:134`): lexicographic
in declaration order. -/
def cmp (a b : MessageId) : Ordering :=
  (compare a.service.val b.service.val).then (compare a.method.val b.method.val)

end MessageId

namespace RequestId

/-- `RequestId::with_client` (`/repo/rsomeip-proto/src/primitives.rs:440-443`). -/
def withClient (i : RequestId) (value : ClientId) : RequestId := { i with client := value }

/-- `RequestId::with_session` (`/repo/rsomeip-proto/src/primitives.rs:457-460`). -/
def withSession (i : RequestId) (value : SessionId) : RequestId := { i with session := value }

/-- `RequestId::from_u32` (`/repo/rsomeip-proto/src/primitives.rs:474-478`), also `From<u32>`
(`:497-501`). -/
def fromU32 (value : UInt32) : RequestId :=
  ⟨⟨(value >>> 16).toUInt16⟩, ⟨(value &&& 0xffff).toUInt16⟩⟩

/-- `RequestId::as_u32` (`/repo/rsomeip-proto/src/primitives.rs:491-494`), also
`From<RequestId> for u32` (`:503-507`). -/
def asU32 (i : RequestId) : UInt32 :=
  (i.client.val.toUInt32 <<< 16) ||| i.session.val.toUInt32

/-- `#[derive(Ord)]` on `RequestId` (`/repo/rsomeip-proto/src/primitives.rs:402`). -/
def cmp (a b : RequestId) : Ordering :=
  (compare a.client.val b.client.val).then (compare a.session.val b.session.val)

end RequestId

namespace ClientId

/-- `ClientId::prefix` (`/repo/rsomeip-proto/src/primitives.rs:303-305`): first big-endian byte. -/
def pfx (c : ClientId) : UInt8 := (c.val >>> 8).toUInt8

/-- `ClientId::with_prefix` (`/repo/rsomeip-proto/src/primitives.rs:320-323`). -/
def withPrefix (c : ClientId) (p : UInt8) : ClientId := ⟨c.val ||| (p.toUInt16 <<< 8)⟩

end ClientId

namespace SessionId

/-- `SessionId::DISABLED` (`/repo/rsomeip-proto/src/primitives.rs:352`). -/
def disabled : SessionId := ⟨0⟩

/-- `SessionId::ENABLED` (`/repo/rsomeip-proto/src/primitives.rs:355`). -/
def enabled : SessionId := ⟨1⟩

/-- `SessionId::is_enabled` (`/repo/rsomeip-proto/src/primitives.rs:371-373`). -/
def isEnabled (s : SessionId) : Bool := s.val > 0

/-- `SessionId::increment` (`/repo/rsomeip-proto/src/primitives.rs:389-396`): the returned value
and the new state. -/
def increment (s : SessionId) : SessionId × SessionId :=
  let old := s.val
  (⟨old⟩, ⟨if old + 1 = 0 then 1 else old + 1⟩)

end SessionId

/-- `MessageType` (`/repo/rsomeip-proto/src/primitives.rs:676-692`). -/
inductive MessageType where
  | request | requestNoReturn | notification | response | error
  | unknown (x : UInt8)
  deriving DecidableEq, Repr

namespace MessageType

/-- `MessageType::from_u8` (`/repo/rsomeip-proto/src/primitives.rs:698-707`). -/
def fromU8 (value : UInt8) : MessageType :=
  if value = 0x00 then .request
  else if value = 0x01 then .requestNoReturn
  else if value = 0x02 then .notification
  else if value = 0x80 then .response
  else if value = 0x81 then .error
  else .unknown value

/-- `MessageType::as_u8` (`/repo/rsomeip-proto/src/primitives.rs:712-721`). -/
def asU8 : MessageType → UInt8
  | .request => 0x00
  | .requestNoReturn => 0x01
  | .notification => 0x02
  | .response => 0x80
  | .error => 0x81
  | .unknown x => x

end MessageType

namespace MessageTypeField

/-- `MessageTypeField::TP_FLAG` (`/repo/rsomeip-proto/src/primitives.rs:575`). -/
def tpFlag : UInt8 := 0x20

/-- `MessageTypeField::ALL_FLAGS` (`/repo/rsomeip-proto/src/primitives.rs:578`). -/
def allFlags : UInt8 := tpFlag

/-- `MessageTypeField::is_tp` (`/repo/rsomeip-proto/src/primitives.rs:592-594`). -/
def isTp (f : MessageTypeField) : Bool := f.val &&& tpFlag == tpFlag

/-- `MessageTypeField::flags` (`/repo/rsomeip-proto/src/primitives.rs:608-610`). -/
def flags (f : MessageTypeField) : UInt8 := f.val &&& allFlags

/-- `MessageTypeField::with_flags` (`/repo/rsomeip-proto/src/primitives.rs:628-635`). -/
def withFlags (f : MessageTypeField) (flags : UInt8) (enabled : Bool) : MessageTypeField :=
  if enabled then ⟨f.val ||| flags⟩ else ⟨f.val &&& ~~~flags⟩

/-- `MessageTypeField::as_type` (`/repo/rsomeip-proto/src/primitives.rs:651-653`). -/
def asType (f : MessageTypeField) : MessageType := MessageType.fromU8 (f.val &&& ~~~allFlags)

/-- `MessageTypeField::from_type` (`/repo/rsomeip-proto/src/primitives.rs:667-669`). -/
def fromType (t : MessageType) : MessageTypeField := ⟨t.asU8⟩

end MessageTypeField

/-- `ReturnCode` (`/repo/rsomeip-proto/src/primitives.rs:770-810`). -/
inductive ReturnCode where
  | ok | notOk | unknownService | unknownMethod | notReady | notReachable | timeout
  | wrongProtocolVersion | wrongInterfaceVersion | malformedMessage | wrongMessageType
  | e2eRepeated | e2eWrongSequence | e2e | e2eNotAvailable | e2eNoNewData
  | reserved (x : UInt8)
  | other (x : UInt8)
  deriving DecidableEq, Repr

namespace ReturnCode

/-- `From<u8> for ReturnCode` (`/repo/rsomeip-proto/src/primitives.rs:812-835`). -/
def fromU8 (value : UInt8) : ReturnCode :=
  if value = 0x00 then .ok
  else if value = 0x01 then .notOk
  else if value = 0x02 then .unknownService
  else if value = 0x03 then .unknownMethod
  else if value = 0x04 then .notReady
  else if value = 0x05 then .notReachable
  else if value = 0x06 then .timeout
  else if value = 0x07 then .wrongProtocolVersion
  else if value = 0x08 then .wrongInterfaceVersion
  else if value = 0x09 then .malformedMessage
  else if value = 0x0a then .wrongMessageType
  else if value = 0x0b then .e2eRepeated
  else if value = 0x0c then .e2eWrongSequence
  else if value = 0x0d then .e2e
  else if value = 0x0e then .e2eNotAvailable
  else if value = 0x0f then .e2eNoNewData
  else if 0x10 ≤ value ∧ value ≤ 0x5e then .reserved value
  else .other value

/-- `From<ReturnCode> for u8` (`/repo/rsomeip-proto/src/primitives.rs:837-859`). -/
def asU8 : ReturnCode → UInt8
  | .ok => 0x00
  | .notOk => 0x01
  | .unknownService => 0x02
  | .unknownMethod => 0x03
  | .notReady => 0x04
  | .notReachable => 0x05
  | .timeout => 0x06
  | .wrongProtocolVersion => 0x07
  | .wrongInterfaceVersion => 0x08
  | .malformedMessage => 0x09
  | .wrongMessageType => 0x0a
  | .e2eRepeated => 0x0b
  | .e2eWrongSequence => 0x0c
  | .e2e => 0x0d
  | .e2eNotAvailable => 0x0e
  | .e2eNoNewData => 0x0f
  | .reserved x => x
  | .other x => x

end ReturnCode

/-- `impl Serialize for ServiceId` (`/repo/rsomeip-proto/src/primitives.rs:60-68,107`). -/
def ServiceId.ser : Ser ServiceId := Ser.u16.via ServiceId.val
/-- `impl Deserialize for ServiceId` (`/repo/rsomeip-proto/src/primitives.rs:70-76,107`). -/
def ServiceId.de : Dec ServiceId := Dec.u16.map ServiceId.mk
/-- `impl Serialize for MethodId` (`/repo/rsomeip-proto/src/primitives.rs:60-68,129`). -/
def MethodId.ser : Ser MethodId := Ser.u16.via MethodId.val
/-- `impl Deserialize for MethodId` (`/repo/rsomeip-proto/src/primitives.rs:70-76,129`). -/
def MethodId.de : Dec MethodId := Dec.u16.map MethodId.mk
/-- `impl Serialize for ClientId` (`/repo/rsomeip-proto/src/primitives.rs:60-68,287`). -/
def ClientId.ser : Ser ClientId := Ser.u16.via ClientId.val
/-- `impl Deserialize for ClientId` (`/repo/rsomeip-proto/src/primitives.rs:70-76,287`). -/
def ClientId.de : Dec ClientId := Dec.u16.map ClientId.mk
/-- `impl Serialize for SessionId` (`/repo/rsomeip-proto/src/primitives.rs:60-68,348`). -/
def SessionId.ser : Ser SessionId := Ser.u16.via SessionId.val
/-- `impl Deserialize for SessionId` (`/repo/rsomeip-proto/src/primitives.rs:70-76,348`). -/
def SessionId.de : Dec SessionId := Dec.u16.map SessionId.mk
/-- `impl Serialize for ProtocolVersion` (`/repo/rsomeip-proto/src/primitives.rs:60-68,549`). -/
def ProtocolVersion.ser : Ser ProtocolVersion := Ser.u8.via ProtocolVersion.val
/-- `impl Deserialize for ProtocolVersion` (`/repo/rsomeip-proto/src/primitives.rs:70-76,549`). -/
def ProtocolVersion.de : Dec ProtocolVersion := Dec.u8.map ProtocolVersion.mk
/-- `impl Serialize for InterfaceVersion` (`/repo/rsomeip-proto/src/primitives.rs:60-68,565`). -/
def InterfaceVersion.ser : Ser InterfaceVersion := Ser.u8.via InterfaceVersion.val
/-- `impl Deserialize for InterfaceVersion` (`/repo/rsomeip-proto/src/primitives.rs:70-76,565`). -/
def InterfaceVersion.de : Dec InterfaceVersion := Dec.u8.map InterfaceVersion.mk
/-- `impl Serialize for MessageTypeField` (`/repo/rsomeip-proto/src/primitives.rs:60-68,571`). -/
def MessageTypeField.ser : Ser MessageTypeField := Ser.u8.via MessageTypeField.val
/-- `impl Deserialize for MessageTypeField` (`/repo/rsomeip-proto/src/primitives.rs:70-76,571`). -/
def MessageTypeField.de : Dec MessageTypeField := Dec.u8.map MessageTypeField.mk

/-- `impl Serialize for MessageId` (`/repo/rsomeip-proto/src/primitives.rs:243-251`). -/
def MessageId.ser : Ser MessageId where
  serialize i := Ser.u32.serialize i.asU32
  sizeHint _ := 4
/-- `impl Deserialize for MessageId` (`/repo/rsomeip-proto/src/primitives.rs:253-259`). -/
def MessageId.de : Dec MessageId := Dec.u32.map MessageId.fromU32
/-- `impl Serialize for RequestId` (`/repo/rsomeip-proto/src/primitives.rs:509-517`). -/
def RequestId.ser : Ser RequestId where
  serialize i := Ser.u32.serialize i.asU32
  sizeHint _ := 4
/-- `impl Deserialize for RequestId` (`/repo/rsomeip-proto/src/primitives.rs:519-525`). -/
def RequestId.de : Dec RequestId := Dec.u32.map RequestId.fromU32
/-- `impl Serialize for MessageType` (`/repo/rsomeip-proto/src/primitives.rs:736-744`). -/
def MessageType.ser : Ser MessageType where
  serialize t := Ser.u8.serialize t.asU8
  sizeHint _ := 1
/-- `impl Deserialize for MessageType` (`/repo/rsomeip-proto/src/primitives.rs:746-752`). -/
def MessageType.de : Dec MessageType := Dec.u8.map MessageType.fromU8
/-- `impl Serialize for ReturnCode` (`/repo/rsomeip-proto/src/primitives.rs:861-869`). -/
def ReturnCode.ser : Ser ReturnCode where
  serialize t := Ser.u8.serialize t.asU8
  sizeHint _ := 1
/-- `impl Deserialize for ReturnCode` (`/repo/rsomeip-proto/src/primitives.rs:871-877`). -/
def ReturnCode.de : Dec ReturnCode := Dec.u8.map ReturnCode.fromU8

end Proto

end Rsomeip
