import Verif.Conform.Proto
import Verif.Someip.Message

/-!
# The tests of `rsomeip/src/someip.rs`, run on the model

One `example` for each unit test of `/repo/rsomeip/src/someip.rs`. As in `Verif.Conform.Bytes`, they
are not proofs of any property.
-/

namespace Rsomeip.Conform

open Someip

/-- `message_represents_data` (`/repo/rsomeip/src/someip.rs:522-541`) -/
example : ((((((((Message.new (1 : UInt8)).withService 0x1234).withMethod 0x5678).withClient 0x9abc).withSession
      0xdef0).withProtocol 0x02).withInterface 0xff).withType .notification).withCode .notOk =
    ⟨0x1234, 0x5678, 0x9abc, 0xdef0, 0x02, 0xff, .notification, .notOk, 1⟩ := by decide

/-- `SERIALIZED_MESSAGE` (`/repo/rsomeip/src/someip.rs:544-553`) -/
def bytes17 : Bytes :=
  [0x12, 0x34, 0x56, 0x78, 0x00, 0x00, 0x00, 0x09, 0x9a, 0xbc, 0xde, 0xf0, 0x01, 0x00, 0x80, 0x01, 0x01]

/-- `serialize_message` -/
example : written ((Message.ser Ser.u8).serialize
    (((((Message.new 1).withId 0x12345678).withRequest 0x9abcdef0).withType .response).withCode
      .notOk)) = (.ok 17, bytes17) := by decide +kernel

/-- `deserialize_message` -/
example : (Message.de Dec.u8 bytes17).1 =
    .ok ⟨0x1234, 0x5678, 0x9abc, 0xdef0, 0x01, 0x00, .response, .notOk, 1⟩ := by decide +kernel

/-- The ten message types with names, in the order of the tests
(`/repo/rsomeip/src/someip.rs:587-596`). -/
def namedTypes : List MessageType :=
  [.request, .requestNoReturn, .notification, .response, .error, .tpRequest, .tpRequestNoReturn,
    .tpNotification, .tpResponse, .tpError]

/-- Their numbers. -/
def namedTypeBytes : List UInt8 := [0x00, 0x01, 0x02, 0x80, 0x81, 0x20, 0x21, 0x22, 0xa0, 0xa1]

/-- `message_type_from_u8` -/
example : namedTypeBytes.map MessageType.fromU8 = namedTypes ∧
    unknownTypes.map MessageType.fromU8 = unknownTypes.map .unknown := by decide +kernel

/-- `u8_from_message_type` -/
example : namedTypes.map MessageType.asU8 = namedTypeBytes ∧
    unknownTypes.map (fun x => (MessageType.unknown x).asU8) = unknownTypes := by decide +kernel

/-- `serialize_message_type` -/
example : written (MessageType.ser.serialize .response) = (.ok 1, [0x80]) := by decide

/-- `deserialize_message_type` -/
example : (MessageType.de [0x80]).1 = .ok .response := by decide

/-- The sixteen return codes with names, in the order of the tests
(`/repo/rsomeip/src/someip.rs:638-653`). -/
def codes : List ReturnCode :=
  [.ok, .notOk, .unknownService, .unknownMethod, .notReady, .notReachable, .timeout,
    .wrongProtocolVersion, .wrongInterfaceVersion, .malformedMessage, .wrongMessageType, .e2eRepeated,
    .e2eWrongSequence, .e2e, .e2eNotAvailable, .e2eNoNewData]

/-- `return_code_from_u8` -/
example : (span 0 0x10).map ReturnCode.fromU8 = codes ∧
    (span 0x10 0x5f).map ReturnCode.fromU8 = (span 0x10 0x5f).map .reserved ∧
    (span 0x5f 0x100).map ReturnCode.fromU8 = (span 0x5f 0x100).map .unknown := by decide +kernel

/-- `u8_from_return_code` -/
example : codes.map ReturnCode.asU8 = span 0 0x10 ∧
    (span 0x10 0x5f).map (fun x => (ReturnCode.reserved x).asU8) = span 0x10 0x5f ∧
    (span 0x5f 0x100).map (fun x => (ReturnCode.unknown x).asU8) = span 0x5f 0x100 := by decide +kernel

/-- `serialize_return_code` -/
example : written (ReturnCode.ser.serialize .notOk) = (.ok 1, [0x01]) := by decide

/-- `deserialize_return_code` -/
example : (ReturnCode.de [1]).1 = .ok .notOk := by decide

end Rsomeip.Conform
