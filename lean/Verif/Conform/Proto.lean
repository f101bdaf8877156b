import Verif.Conform.Bytes
import Verif.Proto.Endpoint
import Verif.Proto.Tp

/-!
# The tests of `rsomeip-proto`, run on the model

The unit tests of `/repo/rsomeip-proto/src/{primitives,message,tp,interface,endpoint}.rs`, one `example`
for each. As in `Verif.Conform.Bytes`, they are not proofs of any property.
-/

namespace Rsomeip.Conform

open Proto

/-! ## `primitives.rs` -/

/-! `test_new_type_serialization!` (`/repo/rsomeip-proto/src/primitives.rs:900-920`) -/

example : written (ServiceId.ser.serialize ⟨0xffff⟩) = (.ok 2, [0xff, 0xff]) ∧
    ServiceId.ser.sizeHint ⟨0xffff⟩ = 2 ∧ (ServiceId.de [0xff, 0xff]).1 = .ok ⟨0xffff⟩ := by decide
example : written (MethodId.ser.serialize ⟨0xffff⟩) = (.ok 2, [0xff, 0xff]) ∧
    MethodId.ser.sizeHint ⟨0xffff⟩ = 2 ∧ (MethodId.de [0xff, 0xff]).1 = .ok ⟨0xffff⟩ := by decide
example : written (MessageId.ser.serialize (.fromU32 0xffffffff)) = (.ok 4, [0xff, 0xff, 0xff, 0xff]) ∧
    MessageId.ser.sizeHint (.fromU32 0xffffffff) = 4 ∧
    (MessageId.de [0xff, 0xff, 0xff, 0xff]).1 = .ok ⟨⟨0xffff⟩, ⟨0xffff⟩⟩ ∧
    MessageId.asU32 ⟨⟨0xffff⟩, ⟨0xffff⟩⟩ = 0xffffffff := by decide
example : written (ClientId.ser.serialize ⟨0xffff⟩) = (.ok 2, [0xff, 0xff]) ∧
    ClientId.ser.sizeHint ⟨0xffff⟩ = 2 ∧ (ClientId.de [0xff, 0xff]).1 = .ok ⟨0xffff⟩ := by decide
example : written (SessionId.ser.serialize ⟨0xffff⟩) = (.ok 2, [0xff, 0xff]) ∧
    SessionId.ser.sizeHint ⟨0xffff⟩ = 2 ∧ (SessionId.de [0xff, 0xff]).1 = .ok ⟨0xffff⟩ := by decide
example : written (RequestId.ser.serialize (.fromU32 0xffffffff)) = (.ok 4, [0xff, 0xff, 0xff, 0xff]) ∧
    RequestId.ser.sizeHint (.fromU32 0xffffffff) = 4 ∧
    (RequestId.de [0xff, 0xff, 0xff, 0xff]).1 = .ok ⟨⟨0xffff⟩, ⟨0xffff⟩⟩ ∧
    RequestId.asU32 ⟨⟨0xffff⟩, ⟨0xffff⟩⟩ = 0xffffffff := by decide
example : written (ProtocolVersion.ser.serialize ⟨0xff⟩) = (.ok 1, [0xff]) ∧
    ProtocolVersion.ser.sizeHint ⟨0xff⟩ = 1 ∧ (ProtocolVersion.de [0xff]).1 = .ok ⟨0xff⟩ := by decide
example : written (InterfaceVersion.ser.serialize ⟨0xff⟩) = (.ok 1, [0xff]) ∧
    InterfaceVersion.ser.sizeHint ⟨0xff⟩ = 1 ∧ (InterfaceVersion.de [0xff]).1 = .ok ⟨0xff⟩ := by decide
example : written (MessageType.ser.serialize (.fromU8 0xff)) = (.ok 1, [0xff]) ∧
    MessageType.ser.sizeHint (.fromU8 0xff) = 1 ∧
    (MessageType.de [0xff]).1 = .ok (.unknown 0xff) := by decide
example : written (MessageTypeField.ser.serialize ⟨0xff⟩) = (.ok 1, [0xff]) ∧
    MessageTypeField.ser.sizeHint ⟨0xff⟩ = 1 ∧ (MessageTypeField.de [0xff]).1 = .ok ⟨0xff⟩ := by decide
example : written (ReturnCode.ser.serialize (.fromU8 0xff)) = (.ok 1, [0xff]) ∧
    ReturnCode.ser.sizeHint (.fromU8 0xff) = 1 ∧
    (ReturnCode.de [0xff]).1 = .ok (.other 0xff) := by decide

/-- `message_id_converts_from_u32`, `message_id_converts_to_u32` -/
example : MessageId.fromU32 0x12345678 = ⟨⟨0x1234⟩, ⟨0x5678⟩⟩ ∧
    MessageId.asU32 ⟨⟨0x1234⟩, ⟨0x5678⟩⟩ = 0x12345678 := by decide

/-- `request_id_converts_from_u32`, `request_id_converts_to_u32` -/
example : RequestId.fromU32 0x12345678 = ⟨⟨0x1234⟩, ⟨0x5678⟩⟩ ∧
    RequestId.asU32 ⟨⟨0x1234⟩, ⟨0x5678⟩⟩ = 0x12345678 := by decide

/-- `is_session_handling_enabled` -/
example : SessionId.disabled.isEnabled = false ∧ SessionId.enabled.isEnabled = true := by decide

/-- `session_id_wraps_to_1` -/
example : SessionId.increment ⟨0xffff⟩ = (⟨0xffff⟩, ⟨1⟩) := by decide

/-- The bytes of the tests of message types that are not the number of a type
(`/repo/rsomeip-proto/src/primitives.rs:1037,1051`). -/
def unknownTypes : List UInt8 :=
  ((List.range 256).map UInt8.ofNat).filter fun x =>
    !([0x00, 0x01, 0x02, 0x80, 0x81, 0x20, 0x21, 0x22, 0xa0, 0xa1].contains x)

/-- `message_type_converts_from_u8` -/
example : [0x00, 0x01, 0x02, 0x80, 0x81].map MessageType.fromU8 =
      [.request, .requestNoReturn, .notification, .response, .error] ∧
    unknownTypes.map MessageType.fromU8 = unknownTypes.map .unknown := by decide +kernel

/-- `message_type_converts_to_u8` -/
example : [.request, .requestNoReturn, .notification, .response, .error].map MessageType.asU8 =
      [0x00, 0x01, 0x02, 0x80, 0x81] ∧
    unknownTypes.map (fun x => (MessageType.unknown x).asU8) = unknownTypes := by decide +kernel

/-- The sixteen return codes with names, in the order of the tests
(`/repo/rsomeip-proto/src/primitives.rs:1059-1074`). -/
def namedCodes : List ReturnCode :=
  [.ok, .notOk, .unknownService, .unknownMethod, .notReady, .notReachable, .timeout,
    .wrongProtocolVersion, .wrongInterfaceVersion, .malformedMessage, .wrongMessageType, .e2eRepeated,
    .e2eWrongSequence, .e2e, .e2eNotAvailable, .e2eNoNewData]

/-- Numbers from `a` up to but not including `b`. -/
def span (a b : Nat) : List UInt8 := (List.range' a (b - a)).map UInt8.ofNat

/-- `return_code_converts_from_u8` -/
example : (span 0 0x10).map ReturnCode.fromU8 = namedCodes ∧
    (span 0x10 0x5f).map ReturnCode.fromU8 = (span 0x10 0x5f).map .reserved ∧
    (span 0x5f 0x100).map ReturnCode.fromU8 = (span 0x5f 0x100).map .other := by decide +kernel

/-- `return_code_converts_to_u8` -/
example : namedCodes.map ReturnCode.asU8 = span 0 0x10 ∧
    (span 0x10 0x5f).map (fun x => (ReturnCode.reserved x).asU8) = span 0x10 0x5f ∧
    (span 0x5f 0x100).map (fun x => (ReturnCode.other x).asU8) = span 0x5f 0x100 := by decide +kernel

/-! ## `message.rs` -/

/-- `DESERIALIZED_MESSAGE` (`/repo/rsomeip-proto/src/message.rs:890-892`) -/
def message : GenericMessage UInt8 UInt8 :=
  ((GenericMessage.new 1 2).withService ⟨0x1234⟩).withMethod ⟨0x5678⟩

/-- `SERIALIZED_MESSAGE` (`/repo/rsomeip-proto/src/message.rs:894-900`) -/
def messageBytes : Bytes := [0x12, 0x34, 0x56, 0x78, 0x00, 0x00, 0x00, 0x02, 0x01, 0x02]

/-- `message_is_serializable` -/
example : (GenericMessage.ser Ser.u8 Ser.u8).sizeHint message = messageBytes.length ∧
    written ((GenericMessage.ser Ser.u8 Ser.u8).serialize message) =
      (.ok messageBytes.length, messageBytes) := by decide

/-- `message_is_deserializable` -/
example : (GenericMessage.de Dec.u8 Dec.u8 messageBytes).1 = .ok message := by decide

/-- `DESERIALIZED_HEADER` (`/repo/rsomeip-proto/src/message.rs:921-927`) -/
def header : Header :=
  (((((Header.new.withClient ⟨0x1234⟩).withSession ⟨0x5678⟩).withProtocol ⟨0x9a⟩).withInterface
    ⟨0xbc⟩).withMessageType .error).withReturnCode .e2e

/-- `SERIALIZED_HEADER` (`/repo/rsomeip-proto/src/message.rs:929-936`) -/
def headerBytes : Bytes := [0x12, 0x34, 0x56, 0x78, 0x9a, 0xbc, 0x81, 0x0d]

/-- `header_is_serializable` -/
example : Header.ser.sizeHint header = headerBytes.length ∧
    written (Header.ser.serialize header) = (.ok headerBytes.length, headerBytes) := by decide

/-- `header_is_deserializable` -/
example : (Header.de headerBytes).1 = .ok header := by decide

/-! ## `tp.rs` -/

/-- Sixteen times the byte. -/
def unit16 (x : UInt8) : Bytes := List.replicate 16 x

/-- `tp_header_is_split` -/
example :
    let h := TpHeader.new (unit16 0 ++ unit16 1 ++ unit16 2)
    (h.split 16).1 = some ⟨0, true, unit16 0⟩ ∧
    ((h.split 16).2.split 16).1 = some ⟨1, true, unit16 1⟩ ∧
    (((h.split 16).2.split 16).2.split 16) = (none, ⟨2, false, unit16 2⟩) := by decide

/-- `limit_is_multiple_of_16` -/
example :
    let h := TpHeader.new (unit16 0 ++ unit16 0)
    (h.split 15).1 = none ∧
    ((h.split 15).2.split 31) = (some ⟨0, true, unit16 0⟩, ⟨1, false, unit16 0⟩) := by decide

/-- `tp_header_is_joined` -/
example : (⟨0, true, unit16 0⟩ : TpHeader).join ⟨1, false, unit16 0⟩ =
    (.ok (), ⟨0, false, unit16 0 ++ unit16 0⟩) := rfl

/-- `extra_segments_are_not_joined` -/
example : ((TpHeader.new (unit16 0)).join ⟨1, false, unit16 0⟩).1 =
    .error (.unexpectedSegment ⟨1, false, unit16 0⟩) := rfl

/-- `offset_is_checked` -/
example : ((⟨0, true, unit16 0⟩ : TpHeader).join ⟨2, false, unit16 0⟩).1 =
    .error (.wrongOffset 1 ⟨2, false, unit16 0⟩) := rfl

/-- `header_is_serializable` -/
example : TpHeader.ser.sizeHint ⟨1, true, [1]⟩ = 5 ∧
    written (TpHeader.ser.serialize ⟨1, true, [1]⟩) = (.ok 5, [0, 0, 0, 0b00010001, 1]) := by decide

/-- `header_is_deserializable` -/
example : (TpHeader.de [0, 0, 0, 0b00010001, 1]).1 = .ok ⟨1, true, [1]⟩ := by decide

/-- `max_offset_is_checked` -/
example : ∃ e, (written (TpHeader.ser.serialize ⟨0xffffffff, true, [1]⟩)).1 = .err e := ⟨_, rfl⟩

/-! ## `interface.rs` -/

/-- All message types of the tests (`/repo/rsomeip-proto/src/interface.rs:398-405`). -/
def types : List MessageType :=
  [.request, .response, .requestNoReturn, .error, .notification, .unknown 0xff]

/-- `Message::default().with_message_type(value)` (`/repo/rsomeip-proto/src/interface.rs:410`);
`Message::default` is `Message::new` of defaults (`/repo/rsomeip-proto/src/message.rs:602-611,812-816`). -/
def typed (t : MessageType) : Message Bytes := 
  Message.withMessageType (GenericMessage.new Header.new []) t

/-- What `check` says of messages of all types, in the order of `types`, for both directions. -/
def verdicts (i : Interface) (d : Direction) : List (Except MessageError Unit) :=
  types.map fun t => i.check (typed t) d

/-- `interface_version_is_checked` -/
example : ∀ d, verdicts (Interface.default.withVersion ⟨1⟩) d = types.map fun t =>
    .error (if t = .request then .invalid .wrongInterfaceVersion
      else .dropped .wrongInterfaceVersion) := by
  intro d; cases d <;> rfl

/-- `method_id_is_checked` -/
example : ∀ d, verdicts Interface.default d = types.map fun t =>
    .error (if t = .request then .invalid .unknownMethod else .dropped .unknownMethod) := by
  intro d; cases d <;> rfl

/-- `stub_method_valid_message_types`, `stub_method_invalid_message_types` -/
example : verdicts (Interface.default.withMethod ⟨0⟩) .incoming = types.map (fun t =>
      if t = .request then .ok () else .error (.invalid .wrongMessageType)) ∧
    verdicts (Interface.default.withMethod ⟨0⟩) .outgoing = types.map (fun t =>
      if t = .response ∨ t = .error then .ok () else .error (.invalid .wrongMessageType)) :=
  ⟨rfl, rfl⟩

/-- `stub_procedure_valid_message_types`, `stub_procedure_invalid_message_types` -/
example : verdicts (Interface.default.withProcedure ⟨0⟩) .incoming = types.map (fun t =>
      if t = .requestNoReturn then .ok () else .error (.dropped .wrongMessageType)) ∧
    verdicts (Interface.default.withProcedure ⟨0⟩) .outgoing = types.map (fun _ =>
      .error (.invalid .wrongMessageType)) := ⟨rfl, rfl⟩

/-- `stub_event_valid_message_types`, `stub_event_only_handles_notifications` -/
example : verdicts (Interface.default.withEvent ⟨0⟩) .incoming = types.map (fun _ =>
      .error (.dropped .wrongMessageType)) ∧
    verdicts (Interface.default.withEvent ⟨0⟩) .outgoing = types.map (fun t =>
      if t = .notification then .ok () else .error (.invalid .wrongMessageType)) := ⟨rfl, rfl⟩

/-- `proxy_method_valid_message_types`, `proxy_method_invalid_message_types` -/
example : verdicts (Interface.default.withMethod ⟨0⟩).intoProxy .incoming = types.map (fun t =>
      if t = .response ∨ t = .error then .ok () else .error (.dropped .wrongMessageType)) ∧
    verdicts (Interface.default.withMethod ⟨0⟩).intoProxy .outgoing = types.map (fun t =>
      if t = .request then .ok () else .error (.invalid .wrongMessageType)) := ⟨rfl, rfl⟩

/-- `proxy_procedure_valid_message_types`, `proxy_procedure_invalid_message_types` -/
example : verdicts (Interface.default.withProcedure ⟨0⟩).intoProxy .incoming = types.map (fun _ =>
      .error (.dropped .wrongMessageType)) ∧
    verdicts (Interface.default.withProcedure ⟨0⟩).intoProxy .outgoing = types.map (fun t =>
      if t = .requestNoReturn then .ok () else .error (.invalid .wrongMessageType)) := ⟨rfl, rfl⟩

/-- `proxy_event_valid_message_types`, `proxy_event_invalid_message_types` -/
example : verdicts (Interface.default.withEvent ⟨0⟩).intoProxy .incoming = types.map (fun t =>
      if t = .notification then .ok () else .error (.dropped .wrongMessageType)) ∧
    verdicts (Interface.default.withEvent ⟨0⟩).intoProxy .outgoing = types.map (fun _ =>
      .error (.invalid .wrongMessageType)) := ⟨rfl, rfl⟩

/-! ## `endpoint.rs` -/

deriving instance DecidableEq for Except, EndpointError, Run

/-- Poll the bytes of the message (`/repo/rsomeip-proto/src/endpoint.rs:343-349`). -/
def polled (e : Endpoint) (m : Message Bytes) : Run (Except (EndpointError Bytes) (Message Bytes)) :=
  match GenericMessage.toBytes Header.ser Ser.bytes m with
  | .ok b => (e.poll Dec.bytes b).1
  | _ => .panic

/-- `protocol_version_is_checked` -/
example :
    (types.map fun t => polled .new (Message.withProtocol (typed t) ⟨0xff⟩)) = (types.map fun t =>
      let m := Message.withProtocol (typed t) ⟨0xff⟩
      .done (.error (if t = .request then .invalidMessage m .wrongProtocolVersion
        else .messageDropped m .wrongProtocolVersion))) ∧
    (types.map fun t =>
      (Endpoint.new.process Ser.bytes (Message.withProtocol (typed t) ⟨0xff⟩) ⟨[], none⟩).1) =
      types.map fun t =>
        .done (.error (.invalidMessage (Message.withProtocol (typed t) ⟨0xff⟩) .wrongProtocolVersion)) := by
  decide +kernel

/-- `service_id_is_checked` -/
example :
    (types.map fun t => polled .new (typed t)) = (types.map fun t =>
      .done (.error (if t = .request then .invalidMessage (typed t) .unknownService
        else .messageDropped (typed t) .unknownService))) ∧
    (types.map fun t => (Endpoint.new.process Ser.bytes (typed t) ⟨[], none⟩).1) =
      types.map fun t => .done (.error (.invalidMessage (typed t) .unknownService)) := by
  decide +kernel

/-- `interface_errors_are_propagated` -/
example :
    let e := Endpoint.new.withInterface ⟨0⟩ Interface.default
    (e.process Ser.bytes (typed .request) ⟨[], none⟩).1 =
      .done (.error (.invalidMessage (typed .request) .unknownMethod)) ∧
    (e.process Ser.bytes (typed .requestNoReturn) ⟨[], none⟩).1 =
      .done (.error (.messageDropped (typed .requestNoReturn) .unknownMethod)) ∧
    polled e (typed .request) = .done (.error (.invalidMessage (typed .request) .unknownMethod)) ∧
    polled e (typed .requestNoReturn) =
      .done (.error (.messageDropped (typed .requestNoReturn) .unknownMethod)) := by
  decide +kernel

end Rsomeip.Conform
