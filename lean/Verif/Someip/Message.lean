import Verif.Proto.Primitives

/-!
# Messages of the `rsomeip` crate

Transcription of `/repo/rsomeip/src/someip.rs`. Ids are plain integers there (`:15-36`).
-/

namespace Rsomeip.Someip

/-- `MessageType` (`/repo/rsomeip/src/someip.rs:350-365`). -/
inductive MessageType where
  | request | requestNoReturn | notification | response | error
  | tpRequest | tpRequestNoReturn | tpNotification | tpResponse | tpError
  | unknown (x : UInt8)
  deriving DecidableEq, Repr

namespace MessageType

/-- `From<u8> for MessageType` (`/repo/rsomeip/src/someip.rs:367-383`). -/
def fromU8 (value : UInt8) : MessageType :=
  if value = 0x00 then .request
  else if value = 0x01 then .requestNoReturn
  else if value = 0x02 then .notification
  else if value = 0x80 then .response
  else if value = 0x81 then .error
  else if value = 0x20 then .tpRequest
  else if value = 0x21 then .tpRequestNoReturn
  else if value = 0x22 then .tpNotification
  else if value = 0xa0 then .tpResponse
  else if value = 0xa1 then .tpError
  else .unknown value

/-- `From<MessageType> for u8` (`/repo/rsomeip/src/someip.rs:385-401`). -/
def asU8 : MessageType → UInt8
  | .request => 0x00
  | .requestNoReturn => 0x01
  | .notification => 0x02
  | .response => 0x80
  | .error => 0x81
  | .tpRequest => 0x20
  | .tpRequestNoReturn => 0x21
  | .tpNotification => 0x22
  | .tpResponse => 0xa0
  | .tpError => 0xa1
  | .unknown x => x

/-- `impl Serialize for MessageType` (`/repo/rsomeip/src/someip.rs:403-411`). -/
def ser : Ser MessageType where
  serialize t := Ser.u8.serialize t.asU8
  sizeHint _ := Ser.u8.sizeHint 0

/-- `impl Deserialize for MessageType` (`/repo/rsomeip/src/someip.rs:413-419`). -/
def de : Dec MessageType := Dec.u8.map fromU8

end MessageType

/-- `ReturnCode` (`/repo/rsomeip/src/someip.rs:425-447`). -/
inductive ReturnCode where
  | ok | notOk | unknownService | unknownMethod | notReady | notReachable | timeout
  | wrongProtocolVersion | wrongInterfaceVersion | malformedMessage | wrongMessageType
  | e2eRepeated | e2eWrongSequence | e2e | e2eNotAvailable | e2eNoNewData
  | reserved (x : UInt8)
  | unknown (x : UInt8)
  deriving DecidableEq, Repr

namespace ReturnCode

/-- `From<u8> for ReturnCode` (`/repo/rsomeip/src/someip.rs:449-472`). -/
def fromU8 (value : UInt8) : ReturnCode :=
  if value = 0x00 then .ok
  else if value = 0x01 then .notOk
  else if value = 0x02 then .unknownService
  else if value = 0x03 then .unknownMethod
  else if value = 0x04 then .notReady
  else if value = 0x05 then .notReachable
  else if value = 0x06 then .timeout
  else if value = 0x07 then .wrongProtocolVersion
  else if value = 0x08 then .wrongInterfaceVersion
  else if value = 0x09 then .malformedMessage
  else if value = 0x0a then .wrongMessageType
  else if value = 0x0b then .e2eRepeated
  else if value = 0x0c then .e2eWrongSequence
  else if value = 0x0d then .e2e
  else if value = 0x0e then .e2eNotAvailable
  else if value = 0x0f then .e2eNoNewData
  else if 0x10 ≤ value ∧ value ≤ 0x5e then .reserved value
  else .unknown value

/-- `From<ReturnCode> for u8` (`/repo/rsomeip/src/someip.rs:474-496`). -/
def asU8 : ReturnCode → UInt8
  | .ok => 0x00
  | .notOk => 0x01
  | .unknownService => 0x02
  | .unknownMethod => 0x03
  | .notReady => 0x04
  | .notReachable => 0x05
  | .timeout => 0x06
  | .wrongProtocolVersion => 0x07
  | .wrongInterfaceVersion => 0x08
  | .malformedMessage => 0x09
  | .wrongMessageType => 0x0a
  | .e2eRepeated => 0x0b
  | .e2eWrongSequence => 0x0c
  | .e2e => 0x0d
  | .e2eNotAvailable => 0x0e
  | .e2eNoNewData => 0x0f
  | .reserved x => x
  | .unknown x => x

/-- `impl Serialize for ReturnCode` (`/repo/rsomeip/src/someip.rs:498-506`). -/
def ser : Ser ReturnCode where
  serialize t := Ser.u8.serialize t.asU8
  sizeHint _ := Ser.u8.sizeHint 0

/-- `impl Deserialize for ReturnCode` (`/repo/rsomeip/src/someip.rs:508-514`). -/
def de : Dec ReturnCode := Dec.u8.map fromU8

end ReturnCode

/-- `Message<T>` (`/repo/rsomeip/src/someip.rs:61-81`). -/
structure Message (β : Type) where
  service : UInt16
  method : UInt16
  client : UInt16
  session : UInt16
  protocol : UInt8
  interface : UInt8
  messageType : MessageType
  returnCode : ReturnCode
  payload : β
  deriving DecidableEq, Repr

namespace Message

variable {β : Type}

/-- `Message::new` (`/repo/rsomeip/src/someip.rs:85-97`). -/
def new (payload : β) : Message β where
  service := 0
  method := 0
  client := 0
  session := 0
  protocol := 1
  interface := 0
  messageType := .request
  returnCode := .ok
  payload := payload

/-- `Message::with_service` (`/repo/rsomeip/src/someip.rs:101-104`). -/
def withService (m : Message β) (service : UInt16) : Message β := { m with service := service }
/-- `Message::with_method` (`/repo/rsomeip/src/someip.rs:108-111`). -/
def withMethod (m : Message β) (method : UInt16) : Message β := { m with method := method }
/-- `Message::with_id` (`/repo/rsomeip/src/someip.rs:127-131`). -/
def withId (m : Message β) (id : UInt32) : Message β :=
  { m with service := (id >>> 16).toUInt16, method := (id &&& 0xffff).toUInt16 }
/-- `Message::with_client` (`/repo/rsomeip/src/someip.rs:135-138`). -/
def withClient (m : Message β) (client : UInt16) : Message β := { m with client := client }
/-- `Message::with_session` (`/repo/rsomeip/src/someip.rs:142-145`). -/
def withSession (m : Message β) (session : UInt16) : Message β := { m with session := session }
/-- `Message::with_request` (`/repo/rsomeip/src/someip.rs:161-165`). -/
def withRequest (m : Message β) (request : UInt32) : Message β :=
  { m with client := (request >>> 16).toUInt16, session := (request &&& 0xffff).toUInt16 }
/-- `Message::with_protocol` (`/repo/rsomeip/src/someip.rs:169-172`). -/
def withProtocol (m : Message β) (protocol : UInt8) : Message β := { m with protocol := protocol }
/-- `Message::with_interface` (`/repo/rsomeip/src/someip.rs:176-179`). -/
def withInterface (m : Message β) (interface : UInt8) : Message β :=
  { m with interface := interface }
/-- `Message::with_type` (`/repo/rsomeip/src/someip.rs:183-186`). -/
def withType (m : Message β) (t : MessageType) : Message β := { m with messageType := t }
/-- `Message::with_code` (`/repo/rsomeip/src/someip.rs:190-193`). -/
def withCode (m : Message β) (c : ReturnCode) : Message β := { m with returnCode := c }
/-- `Message::with_payload` (`/repo/rsomeip/src/someip.rs:197-200`). -/
def withPayload (m : Message β) (payload : β) : Message β := { m with payload := payload }

/-- `Message::id` (`/repo/rsomeip/src/someip.rs:216-218`). -/
def id (m : Message β) : UInt32 := (m.service.toUInt32 <<< 16) ||| m.method.toUInt32

/-- `Message::request` (`/repo/rsomeip/src/someip.rs:234-236`). -/
def request (m : Message β) : UInt32 := (m.client.toUInt32 <<< 16) ||| m.session.toUInt32

/-- `impl Serialize for Message<T>` (`/repo/rsomeip/src/someip.rs:239-278`). -/
def ser (b : Ser β) : Ser (Message β) where
  serialize m := do
    let s1 ← Ser.u32.serialize m.id
    let s2 ← (Ser.tcons Ser.u16 (Ser.tcons Ser.u16 (Ser.tcons Ser.u8 (Ser.tcons Ser.u8
      (Ser.tcons MessageType.ser (Ser.tcons ReturnCode.ser (Ser.tcons b Ser.tnil))))))).serializeLen
        .u32 (m.client, m.session, m.protocol, m.interface, m.messageType, m.returnCode,
          m.payload, ())
    pure (s1 + s2)
  sizeHint m :=
    (Ser.u16.sizeHint m.service + Ser.u16.sizeHint m.method) +
      (Ser.u32.sizeHint 0 + Ser.u16.sizeHint m.client + Ser.u16.sizeHint m.session +
        Ser.u8.sizeHint m.protocol + Ser.u8.sizeHint m.interface +
        MessageType.ser.sizeHint m.messageType + ReturnCode.ser.sizeHint m.returnCode +
        b.sizeHint m.payload)

/-- `impl Deserialize for Message<T>` (`/repo/rsomeip/src/someip.rs:280-309`). -/
def de (b : Dec β) : Dec (Message β) := do
  let id ← Dec.u32
  let (request, protocol, interface, messageType, returnCode, payload, ()) ←
    Dec.len (Dec.tcons Dec.u32 (Dec.tcons Dec.u8 (Dec.tcons Dec.u8 (Dec.tcons MessageType.de
      (Dec.tcons ReturnCode.de (Dec.tcons b Dec.tnil)))))) .u32
  pure ((((((((new payload).withId id).withRequest request).withProtocol protocol).withInterface
    interface).withType messageType).withCode returnCode))

end Message

end Rsomeip.Someip
