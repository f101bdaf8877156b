import Verif.Conform.Proto
import Verif.Proto.Display

/-!
# The examples in the documentation, run on the model

The examples in the doc comments of `/repo/rsomeip-bytes/src` and `/repo/rsomeip-proto/src`, and those in
their `README.md` files, as far as they are not unit tests as well. As in `Verif.Conform.Bytes`, they are
not proofs of any property.
-/

namespace Rsomeip.Conform

open Proto

/-! ## `rsomeip-bytes` -/

/-- `Deserialize::deserialize` (`/repo/rsomeip-bytes/src/de.rs:31-37`) -/
example : Dec.u8 [1, 2] = (.ok 1, [2]) ∧ Dec.u8 [2] = (.ok 2, []) ∧
    Dec.u8 [] = (.err (.insufficientData 1 0), []) := by decide

/-- `Deserialize::deserialize_len` (`/repo/rsomeip-bytes/src/de.rs:54-63`) -/
example : Dec.len (Dec.vec Dec.u8) .u8 [2, 1, 2, 3] = (.ok [1, 2], [3]) ∧ Dec.u8 [3] = (.ok 3, []) := by
  decide +kernel

/-- `serialize_into!` (`/repo/rsomeip-bytes/src/macros.rs:14-26`) -/
example : written (do
      let x ← (Ser.tcons Ser.u8 (Ser.tcons Ser.u8 Ser.tnil)).serialize (1, 2, ())
      let y ← (Ser.tcons Ser.u8 (Ser.tcons Ser.u8 Ser.tnil)).serializeLen .u8 (3, 4, ())
      pure (x + y)) = (.ok 5, [1, 2, 2, 3, 4]) := by decide +kernel

/-- `size_hint!` (`/repo/rsomeip-bytes/src/macros.rs:51-60`) -/
example : (Ser.tcons Ser.u8 (Ser.tcons Ser.u8 Ser.tnil)).sizeHint (1, 2, ()) +
    (LengthField.u32.width + (Ser.tcons Ser.u8 (Ser.tcons Ser.u8 Ser.tnil)).sizeHint (3, 4, ())) = 8 := by
  decide

/-- `deserialize_from!` (`/repo/rsomeip-bytes/src/macros.rs:96-105`) -/
example : (do
      let x ← Dec.tcons Dec.u8 (Dec.tcons Dec.u8 Dec.tnil)
      let y ← Dec.len (Dec.tcons Dec.u8 (Dec.tcons Dec.u8 Dec.tnil)) .u8
      pure [x.1, x.2.1, y.1, y.2.1] : Dec (List UInt8)) [1, 2, 2, 3, 4] = (.ok [1, 2, 3, 4], []) := by
  decide +kernel

/-- `Serialize::serialize` (`/repo/rsomeip-bytes/src/ser.rs:30-36`) -/
example : written (do
      let _ ← Ser.u8.serialize 1
      Ser.u16.serialize 2) = (.ok 2, [1, 0, 2]) := by decide +kernel

/-- `Serialize::serialize_len` (`/repo/rsomeip-bytes/src/ser.rs:54-60`) -/
example : written ((Ser.vec Ser.u8).serializeLen .u8 [0, 1]) = (.ok 3, [2, 0, 1]) := by decide +kernel

/-- `Serialize::size_hint` (`/repo/rsomeip-bytes/src/ser.rs:98-104`) -/
example : Ser.u8.sizeHint 0 = 1 ∧ Ser.u32.sizeHint 0 = 4 ∧ (Ser.vec Ser.u8).sizeHint [1, 2, 3] = 3 := by
  decide

/-- `serialize_utf8`, `serialize_utf16_be`, `serialize_utf16_le`
(`/repo/rsomeip-bytes/src/ser.rs:277-289,308-320,339-351`) -/
example : written (Ser.utf8.serialize "Hello!".toList) =
    (.ok 10, [0xef, 0xbb, 0xbf, 0x48, 0x65, 0x6c, 0x6c, 0x6f, 0x21, 0x00]) ∧
    written ((Ser.utf16 .big).serialize "语言处理".toList) =
    (.ok 12, [0xfe, 0xff, 0x8b, 0xed, 0x8a, 0x00, 0x59, 0x04, 0x74, 0x06, 0x00, 0x00]) ∧
    written ((Ser.utf16 .little).serialize "语言处理".toList) =
    (.ok 12, [0xff, 0xfe, 0xed, 0x8b, 0x00, 0x8a, 0x04, 0x59, 0x06, 0x74, 0x00, 0x00]) := by
  decide +kernel

/-- `/repo/rsomeip-bytes/README.md:27-45` -/
example : written (do
      let x ← Ser.u8.serialize 1
      let y ← (Ser.vec Ser.u8).serializeLen .u8 [1, 2]
      pure (x + y)) = (.ok 4, [1, 2, 1, 2]) ∧
    (do
      let x ← Dec.u8
      let y ← Dec.len (Dec.vec Dec.u8) .u8
      pure (x, y) : Dec (UInt8 × List UInt8)) [1, 2, 1, 2] = (.ok (1, [1, 2]), []) := by
  decide +kernel

/-- The type `Foo` of `/repo/rsomeip-bytes/README.md:49-87`: what it writes, what it says about its size,
and that it can be read back. -/
example :
    let foo := Ser.tcons Ser.u8 (Ser.tcons (Ser.len (Ser.vec Ser.u8) .u8) Ser.tnil)
    written (foo.serialize (7, [1, 2, 3], ())) = (.ok 5, [7, 3, 1, 2, 3]) ∧ foo.sizeHint (7, [1, 2, 3], ()) = 5 ∧
    Dec.tcons Dec.u8 (Dec.tcons (Dec.len (Dec.vec Dec.u8) .u8) Dec.tnil) [7, 3, 1, 2, 3] =
      (.ok (7, [1, 2, 3], ()), []) := by decide +kernel

/-! ## `endpoint.rs` -/

/-- `Endpoint::with_interface`, `insert`, `remove`, `get`, `get_mut`
(`/repo/rsomeip-proto/src/endpoint.rs:27-32,45-51,60-66,75-80,90-95`) -/
example : (Endpoint.new.withInterface ⟨0⟩ .default).get ⟨0⟩ = some .default ∧
    (Endpoint.new.insert ⟨0⟩ .default).1 = none ∧
    ((Endpoint.new.insert ⟨0⟩ .default).2.insert ⟨0⟩ .default).1 = some .default ∧
    ((Endpoint.new.withInterface ⟨0⟩ .default).remove ⟨0⟩).1 = some .default ∧
    (((Endpoint.new.withInterface ⟨0⟩ .default).remove ⟨0⟩).2.remove ⟨0⟩).1 = none ∧
    ((Endpoint.new.withInterface ⟨0⟩ .default).modify ⟨0⟩ id).1 = some .default := by decide

/-- The default message (`/repo/rsomeip-proto/src/message.rs:590-600`). -/
def standard : Message Bytes := .new Header.new []

/-- `Endpoint::poll` (`/repo/rsomeip-proto/src/endpoint.rs:117-135`) -/
example : polled (Endpoint.new.withInterface ⟨0⟩ (Interface.default.withMethod ⟨0⟩)) standard =
    .done (.ok standard) := by decide +kernel

/-- `Endpoint::process` (`/repo/rsomeip-proto/src/endpoint.rs:201-221`) -/
example : (Endpoint.new.withInterface ⟨0⟩ (Interface.default.withEvent ⟨0⟩)).process Ser.bytes
    (standard.withMessageType .notification) ⟨[], none⟩ =
    (.done (.ok ((Message.ser Ser.bytes).sizeHint (standard.withMessageType .notification))),
      ⟨[0, 0, 0, 0, 0, 0, 0, 8, 0, 0, 0, 0, 1, 0, 2, 0], none⟩) := by decide +kernel

/-- `/repo/rsomeip-proto/README.md:33-76` -/
example :
    let endpoint := (Endpoint.new.withInterface ⟨1⟩ (Interface.default.withMethod ⟨0⟩)).withInterface ⟨2⟩
      (Interface.default.withMethod ⟨0⟩).intoProxy
    polled endpoint (standard.withService ⟨1⟩) = .done (.ok (standard.withService ⟨1⟩)) ∧
    (endpoint.process Ser.bytes (standard.withService ⟨2⟩) ⟨[], none⟩).1 = .done (.ok 16) ∧
    GenericMessage.toBytes Header.ser Ser.bytes (standard.withService ⟨2⟩) =
      .ok (endpoint.process Ser.bytes (standard.withService ⟨2⟩) ⟨[], none⟩).2.data := by decide +kernel

/-! ## `interface.rs` -/

/-- `/repo/rsomeip-proto/src/interface.rs:34-201` -/
example : Interface.default.intoStub.flavor = .stub ∧ Interface.default.intoProxy.flavor = .proxy ∧
    (Interface.default.withVersion ⟨1⟩).version = ⟨1⟩ ∧
    (Interface.default.withMethod ⟨1⟩).get ⟨1⟩ = some .method ∧
    (Interface.default.withProcedure ⟨1⟩).get ⟨1⟩ = some .procedure ∧
    (Interface.default.withEvent ⟨1⟩).get ⟨1⟩ = some .event ∧
    (Interface.default.insert ⟨1⟩ .method).1 = none ∧
    ((Interface.default.insert ⟨1⟩ .method).2.insert ⟨1⟩ .procedure).1 = some .method ∧
    ((Interface.default.withMethod ⟨1⟩).remove ⟨1⟩).1 = some .method ∧
    (((Interface.default.withMethod ⟨1⟩).remove ⟨1⟩).2.remove ⟨1⟩).1 = none ∧
    ((Interface.default.withMethod ⟨1⟩).modify ⟨1⟩ id).1 = some .method := by decide

/-! ## `message.rs` -/

/-- A message of strings. -/
def strings : GenericMessage String String := .new "header" "body"

/-- `GenericMessage` (`/repo/rsomeip-proto/src/message.rs:43-270`) -/
example : strings.header = "header" ∧ strings.body = "body" ∧
    ((strings.withService ⟨0x1234⟩).withMethod ⟨0x5678⟩).id.asU32 = 0x12345678 ∧
    (strings.withId (.fromU32 0x12345678)).service = ⟨0x1234⟩ ∧
    (strings.withId (.fromU32 0x12345678)).method = ⟨0x5678⟩ ∧
    (strings.withService ⟨0x1234⟩).service = ⟨0x1234⟩ ∧ (strings.withMethod ⟨0x1234⟩).method = ⟨0x1234⟩ ∧
    (strings.withHeader (0x1234 : UInt16)).header = 0x1234 ∧
    (strings.withBody (0x1234 : UInt16)).body = 0x1234 ∧
    ((GenericMessage.new (1 : UInt8) (2 : UInt8)).map fun h b => (h + 1, b + 1)) =
      GenericMessage.new (2 : UInt8) (3 : UInt8) ∧
    ((GenericMessage.new (1 : UInt8) "body").mapHeader (· + 1)).header = 2 ∧
    ((GenericMessage.new "header" (2 : UInt8)).mapBody (· + 1)).body = 3 ∧
    strings.replaceHeader "new_header" = ("header", .new "new_header" "body") ∧
    strings.replaceBody "new_body" = ("body", .new "header" "new_body") := by decide

/-- A message with a default header. -/
def plain : Message String := .new Header.new "body"

/-- `Message` (`/repo/rsomeip-proto/src/message.rs:284-528`) -/
example : (plain.intoResponse .notOk).messageType = .response ∧
    (plain.intoResponse .notOk).returnCode = .notOk ∧ (plain.intoResponse .notOk).body = "body" ∧
    (plain.intoError .notOk).messageType = .error ∧ (plain.intoError .notOk).returnCode = .notOk ∧
    (plain.intoError .notOk).body = "body" ∧ (plain.withClient ⟨0x1234⟩).client = ⟨0x1234⟩ ∧
    (plain.withSession ⟨0x1234⟩).session = ⟨0x1234⟩ ∧ (plain.withProtocol ⟨0x12⟩).protocol = ⟨0x12⟩ ∧
    (plain.withInterface ⟨0x12⟩).interface = ⟨0x12⟩ ∧
    (plain.withMessageType .notification).messageType = .notification ∧
    (plain.withReturnCode .e2e).returnCode = .e2e := by decide

/-- `Header` (`/repo/rsomeip-proto/src/message.rs:676-803`) -/
example : ((Header.new.withClient ⟨0x1234⟩).withSession ⟨0x5678⟩).id.asU32 = 0x12345678 ∧
    (Header.new.withId (.fromU32 0x12345678)).client = ⟨0x1234⟩ ∧
    (Header.new.withId (.fromU32 0x12345678)).session = ⟨0x5678⟩ ∧
    (Header.new.withProtocol ⟨0x12⟩).protocol = ⟨0x12⟩ ∧
    (Header.new.withInterface ⟨0x12⟩).interface = ⟨0x12⟩ ∧
    (Header.new.withMessageType .notification).messageType.asType = .notification ∧
    (Header.new.withReturnCode .notOk).returnCode = .notOk := by decide

/-- `Display` (`/repo/rsomeip-proto/src/message.rs:625-632,863-872`,
`/repo/rsomeip-proto/src/primitives.rs:266-273,532-539,759-763,884-888`) -/
example : Display.generic String.toList ((strings.withService ⟨0x1234⟩).withMethod ⟨0x5678⟩) =
      "1234.5678.header".toList ∧
    Display.header ((((Header.new.withClient ⟨0x1234⟩).withSession ⟨0x5678⟩).withMessageType
      .notification).withReturnCode .ok) = "1234.5678.02.00".toList ∧
    Display.messageId ⟨⟨0x1234⟩, ⟨0x5678⟩⟩ = "1234.5678".toList ∧
    Display.requestId ⟨⟨0x1234⟩, ⟨0x5678⟩⟩ = "1234.5678".toList ∧
    Display.messageType .request = "Request".toList ∧ Display.returnCode .ok = "Ok".toList := by
  decide +kernel

/-! ## `primitives.rs` -/

/-- `MessageId`, `RequestId`, `ClientId`, `SessionId`
(`/repo/rsomeip-proto/src/primitives.rs:147-222,294-317,363-387,415-489`) -/
example : (MessageId.withService ⟨⟨0⟩, ⟨0⟩⟩ ⟨0x1234⟩).service = ⟨0x1234⟩ ∧
    (MessageId.withMethod ⟨⟨0⟩, ⟨0⟩⟩ ⟨0x1234⟩).method = ⟨0x1234⟩ ∧
    (RequestId.withClient ⟨⟨0⟩, ⟨0⟩⟩ ⟨0x1234⟩).client = ⟨0x1234⟩ ∧
    (RequestId.withSession ⟨⟨0⟩, ⟨0⟩⟩ ⟨0x1234⟩).session = ⟨0x1234⟩ ∧
    (ClientId.withPrefix ⟨0x0034⟩ 0x12) = ⟨0x1234⟩ ∧ (ClientId.withPrefix ⟨0x0034⟩ 0x12).pfx = 0x12 ∧
    SessionId.increment ⟨1⟩ = (⟨1⟩, ⟨2⟩) ∧ SessionId.enabled.isEnabled = true ∧
    SessionId.disabled.isEnabled = false := by decide

/-- `MessageTypeField` (`/repo/rsomeip-proto/src/primitives.rs:584-664`) -/
example : MessageTypeField.isTp ⟨0⟩ = false ∧ MessageTypeField.isTp ⟨MessageTypeField.tpFlag⟩ = true ∧
    MessageTypeField.flags ⟨MessageTypeField.tpFlag⟩ = MessageTypeField.tpFlag ∧
    (MessageTypeField.withFlags ⟨0⟩ MessageTypeField.tpFlag true).flags = MessageTypeField.tpFlag ∧
    ((MessageTypeField.withFlags ⟨0⟩ MessageTypeField.tpFlag true).withFlags MessageTypeField.tpFlag
      false).flags = 0 ∧
    MessageTypeField.asType ⟨0x80⟩ = .response ∧ (MessageTypeField.fromType .response).val = 0x80 := by
  decide

/-! ## `tp.rs` -/

/-- `TpHeader::split` (`/repo/rsomeip-proto/src/tp.rs:53-81`) -/
example : (TpHeader.new (List.replicate 16 0 ++ List.replicate 16 1)).split 16 =
    (some ⟨0, true, List.replicate 16 0⟩, ⟨1, false, List.replicate 16 1⟩) := by decide

/-- `TpHeader::join` (`/repo/rsomeip-proto/src/tp.rs:123-148`) -/
example : TpHeader.join ⟨0, true, List.replicate 16 0⟩ ⟨1, false, List.replicate 16 0⟩ =
    (.ok (), ⟨0, false, List.replicate 32 0⟩) := by decide

/-- `into_segment`, `wrap_segment`, `unwrap_segment` (`/repo/rsomeip-proto/src/tp.rs:243-289`) -/
example : (∃ m, Message.intoSegment (.new Header.new (List.replicate 5 1)) = .ok m) ∧
    (Message.wrapSegment (.new Header.new [1])).body.body = [1] ∧
    (Message.unwrapSegment (.new Header.new ⟨0, true, [1]⟩)).body = [1] :=
  ⟨⟨.new Header.new ⟨0x101010, true, [1]⟩, by decide +kernel⟩, by decide, by decide⟩

end Rsomeip.Conform
