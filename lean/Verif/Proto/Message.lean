import Verif.Proto.Primitives

/-!
# SOME/IP messages

Transcription of `/repo/rsomeip-proto/src/message.rs`.
-/

namespace Rsomeip.Proto

/-- `GenericMessage<H, B>` (`/repo/rsomeip-proto/src/message.rs:25-35`). -/
structure GenericMessage (η β : Type) where
  service : ServiceId
  method : MethodId
  header : η
  body : β
  deriving DecidableEq, Repr

/-- `Header` (`/repo/rsomeip-proto/src/message.rs:641-655`). -/
structure Header where
  client : ClientId
  session : SessionId
  protocol : ProtocolVersion
  interface : InterfaceVersion
  messageType : MessageTypeField
  returnCode : ReturnCode
  deriving DecidableEq, Repr

/-- `Message<T>` (`/repo/rsomeip-proto/src/lib.rs:12`). -/
abbrev Message (β : Type) := GenericMessage Header β

namespace GenericMessage

variable {η β τ υ : Type}

/-- `GenericMessage::new` (`/repo/rsomeip-proto/src/message.rs:52-59`). -/
def new (header : η) (body : β) : GenericMessage η β := ⟨⟨0⟩, ⟨0⟩, header, body⟩

/-- `GenericMessage::id` (`/repo/rsomeip-proto/src/message.rs:75-77`). -/
def id (m : GenericMessage η β) : MessageId := ⟨m.service, m.method⟩

/-- `GenericMessage::with_id` (`/repo/rsomeip-proto/src/message.rs:92-96`). -/
def withId (m : GenericMessage η β) (id : MessageId) : GenericMessage η β :=
  { m with service := id.service, method := id.method }

/-- `GenericMessage::with_service` (`/repo/rsomeip-proto/src/message.rs:110-113`). -/
def withService (m : GenericMessage η β) (service : ServiceId) : GenericMessage η β :=
  { m with service := service }

/-- `GenericMessage::with_method` (`/repo/rsomeip-proto/src/message.rs:127-130`). -/
def withMethod (m : GenericMessage η β) (method : MethodId) : GenericMessage η β :=
  { m with method := method }

/-- `GenericMessage::with_header` (`/repo/rsomeip-proto/src/message.rs:145-149`). -/
def withHeader (m : GenericMessage η β) (header : τ) : GenericMessage τ β :=
  ((new header m.body).withService m.service).withMethod m.method

/-- `GenericMessage::with_body` (`/repo/rsomeip-proto/src/message.rs:164-168`). -/
def withBody (m : GenericMessage η β) (body : τ) : GenericMessage η τ :=
  ((new m.header body).withService m.service).withMethod m.method

/-- `GenericMessage::map` (`/repo/rsomeip-proto/src/message.rs:185-193`). -/
def map (m : GenericMessage η β) (f : η → β → τ × υ) : GenericMessage τ υ :=
  let p := f m.header m.body
  ((new p.1 p.2).withService m.service).withMethod m.method

/-- `GenericMessage::map_header` (`/repo/rsomeip-proto/src/message.rs:208-215`). -/
def mapHeader (m : GenericMessage η β) (f : η → τ) : GenericMessage τ β :=
  ((new (f m.header) m.body).withService m.service).withMethod m.method

/-- `GenericMessage::map_body` (`/repo/rsomeip-proto/src/message.rs:230-237`). -/
def mapBody (m : GenericMessage η β) (f : β → τ) : GenericMessage η τ :=
  ((new m.header (f m.body)).withService m.service).withMethod m.method

/-- `GenericMessage::replace_header` (`/repo/rsomeip-proto/src/message.rs:254-256`): returned
value and new state. -/
def replaceHeader (m : GenericMessage η β) (value : η) : η × GenericMessage η β :=
  (m.header, { m with header := value })

/-- `GenericMessage::replace_body` (`/repo/rsomeip-proto/src/message.rs:273-275`): returned
value and new state. -/
def replaceBody (m : GenericMessage η β) (value : β) : β × GenericMessage η β :=
  (m.body, { m with body := value })

end GenericMessage

namespace Header

/-- `Header::new` and `Default` (`/repo/rsomeip-proto/src/message.rs:661-670,812-816`). -/
def new : Header where
  client := ⟨0⟩
  session := SessionId.disabled
  protocol := ⟨1⟩
  interface := ⟨0⟩
  messageType := ⟨0⟩
  returnCode := .ok

/-- `Header::id` (`/repo/rsomeip-proto/src/message.rs:686-688`). -/
def id (h : Header) : RequestId := ⟨h.client, h.session⟩

/-- `Header::with_id` (`/repo/rsomeip-proto/src/message.rs:703-707`). -/
def withId (h : Header) (id : RequestId) : Header :=
  { h with client := id.client, session := id.session }

/-- `Header::with_client` (`/repo/rsomeip-proto/src/message.rs:721-724`). -/
def withClient (h : Header) (client : ClientId) : Header := { h with client := client }

/-- `Header::with_session` (`/repo/rsomeip-proto/src/message.rs:738-741`). -/
def withSession (h : Header) (session : SessionId) : Header := { h with session := session }

/-- `Header::with_protocol` (`/repo/rsomeip-proto/src/message.rs:755-758`). -/
def withProtocol (h : Header) (protocol : ProtocolVersion) : Header := { h with protocol := protocol }

/-- `Header::with_interface` (`/repo/rsomeip-proto/src/message.rs:772-775`). -/
def withInterface (h : Header) (interface : InterfaceVersion) : Header :=
  { h with interface := interface }

/-- `Header::with_message_type` (`/repo/rsomeip-proto/src/message.rs:789-792`). -/
def withMessageType (h : Header) (t : MessageType) : Header :=
  { h with messageType := MessageTypeField.fromType t }

/-- `Header::with_return_code` (`/repo/rsomeip-proto/src/message.rs:806-809`). -/
def withReturnCode (h : Header) (c : ReturnCode) : Header := { h with returnCode := c }

end Header

namespace Message

variable {β : Type}

/-- `Message::into_response` (`/repo/rsomeip-proto/src/message.rs:295-301`). -/
def intoResponse (m : Message β) (c : ReturnCode) : Message β :=
  m.mapHeader fun h => (h.withMessageType .response).withReturnCode c

/-- `Message::into_error` (`/repo/rsomeip-proto/src/message.rs:318-324`). -/
def intoError (m : Message β) (c : ReturnCode) : Message β :=
  m.mapHeader fun h => (h.withMessageType .error).withReturnCode c

/-- `Message::client` (`/repo/rsomeip-proto/src/message.rs:339-341`). -/
def client (m : Message β) : ClientId := m.header.client

/-- `Message::with_client` (`/repo/rsomeip-proto/src/message.rs:356-359`). -/
def withClient (m : Message β) (client : ClientId) : Message β :=
  { m with header := { m.header with client := client } }

/-- `Message::session` (`/repo/rsomeip-proto/src/message.rs:374-376`). -/
def session (m : Message β) : SessionId := m.header.session

/-- `Message::with_session` (`/repo/rsomeip-proto/src/message.rs:391-394`). -/
def withSession (m : Message β) (session : SessionId) : Message β :=
  { m with header := { m.header with session := session } }

/-- `Message::protocol` (`/repo/rsomeip-proto/src/message.rs:409-411`). -/
def protocol (m : Message β) : ProtocolVersion := m.header.protocol

/-- `Message::with_protocol` (`/repo/rsomeip-proto/src/message.rs:426-429`). -/
def withProtocol (m : Message β) (protocol : ProtocolVersion) : Message β :=
  { m with header := { m.header with protocol := protocol } }

/-- `Message::interface` (`/repo/rsomeip-proto/src/message.rs:444-446`). -/
def interface (m : Message β) : InterfaceVersion := m.header.interface

/-- `Message::with_interface` (`/repo/rsomeip-proto/src/message.rs:461-464`). -/
def withInterface (m : Message β) (interface : InterfaceVersion) : Message β :=
  { m with header := { m.header with interface := interface } }

/-- `Message::message_type` (`/repo/rsomeip-proto/src/message.rs:479-481`). -/
def messageType (m : Message β) : MessageType := m.header.messageType.asType

/-- `Message::with_message_type` (`/repo/rsomeip-proto/src/message.rs:496-499`). -/
def withMessageType (m : Message β) (t : MessageType) : Message β :=
  { m with header := { m.header with messageType := MessageTypeField.fromType t } }

/-- `Message::return_code` (`/repo/rsomeip-proto/src/message.rs:514-516`). -/
def returnCode (m : Message β) : ReturnCode := m.header.returnCode

/-- `Message::with_return_code` (`/repo/rsomeip-proto/src/message.rs:531-534`). -/
def withReturnCode (m : Message β) (c : ReturnCode) : Message β :=
  { m with header := { m.header with returnCode := c } }

end Message

/-- The fields of a header as the tuple built by `serialize_into!` at
`/repo/rsomeip-proto/src/message.rs:820-828`. -/
def Header.tuple (h : Header) :
    ClientId × SessionId × ProtocolVersion × InterfaceVersion × MessageTypeField × ReturnCode × Unit :=
  (h.client, h.session, h.protocol, h.interface, h.messageType, h.returnCode, ())

/-- `impl Serialize for Header` (`/repo/rsomeip-proto/src/message.rs:818-841`): a tuple through
`serialize_into!`; `size_hint!` over the same members. -/
def Header.ser : Ser Header :=
  (Ser.tcons ClientId.ser (Ser.tcons SessionId.ser (Ser.tcons ProtocolVersion.ser
    (Ser.tcons InterfaceVersion.ser (Ser.tcons MessageTypeField.ser
      (Ser.tcons ReturnCode.ser Ser.tnil)))))).via Header.tuple

/-- `impl Deserialize for Header` (`/repo/rsomeip-proto/src/message.rs:843-856`). -/
def Header.de : Dec Header := do
  let client ← ClientId.de
  let session ← SessionId.de
  let protocol ← ProtocolVersion.de
  let interface ← InterfaceVersion.de
  let messageType ← MessageTypeField.de
  let returnCode ← ReturnCode.de
  pure { client, session, protocol, interface, messageType, returnCode }

namespace GenericMessage

variable {η β : Type}

/-- `impl Serialize for GenericMessage<H, B>` (`/repo/rsomeip-proto/src/message.rs:537-555`). The
second `serialize_into!` is `serialize_len(U32)` of the tuple `(&header, &body)`
(`/repo/rsomeip-bytes/src/macros.rs:30-42`). -/
def ser (h : Ser η) (b : Ser β) : Ser (GenericMessage η β) where
  serialize m := do
    let s1 ← (Ser.tcons ServiceId.ser (Ser.tcons MethodId.ser Ser.tnil)).serialize
      (m.service, m.method, ())
    let s2 ← (Ser.tcons h (Ser.tcons b Ser.tnil)).serializeLen .u32 (m.header, m.body, ())
    pure (s1 + s2)
  sizeHint m :=
    (ServiceId.ser.sizeHint m.service + MethodId.ser.sizeHint m.method) +
      (Ser.u32.sizeHint 0 + h.sizeHint m.header + b.sizeHint m.body)

/-- `impl Deserialize for GenericMessage<H, B>` (`/repo/rsomeip-proto/src/message.rs:557-574`), also
`from_bytes` (`:597-599`). -/
def de (h : Dec η) (b : Dec β) : Dec (GenericMessage η β) := do
  let (service, method, ()) ← Dec.tcons ServiceId.de (Dec.tcons MethodId.de Dec.tnil)
  let (header, body, ()) ← Dec.len (Dec.tcons h (Dec.tcons b Dec.tnil)) .u32
  pure { service, method, header, body }

/-- `GenericMessage::to_bytes` (`/repo/rsomeip-proto/src/message.rs:586-590`): serialize into a new
growable buffer. -/
def toBytes (h : Ser η) (b : Ser β) (m : GenericMessage η β) : SOut Bytes :=
  match (ser h b).serialize m ⟨[], none⟩ with
  | (.ok _, buf) => .ok buf.data
  | (.err e, _) => .err e
  | (.panic, _) => .panic

end GenericMessage

/-- `impl Serialize for Message<T>`: `GenericMessage` with `Header`
(`/repo/rsomeip-proto/src/lib.rs:12`, `/repo/rsomeip-proto/src/message.rs:537-555`). -/
def Message.ser {β : Type} (b : Ser β) : Ser (Message β) := GenericMessage.ser Header.ser b

/-- `impl Deserialize for Message<T>` (`/repo/rsomeip-proto/src/lib.rs:12`,
`/repo/rsomeip-proto/src/message.rs:557-574`). -/
def Message.de {β : Type} (b : Dec β) : Dec (Message β) := GenericMessage.de Header.de b

end Rsomeip.Proto
