import Verif.Spec.Wire
import Verif.Lemmas.Writer
import Verif.Proto.Message

/-!
# The SOME/IP message layout, as a document would describe it

Nothing here refers to the serializers: the layout is given field by field, numbers by
`Spec.be` (big-endian digits) and enumerations by their numbers.
-/

namespace Rsomeip.Spec

open Rsomeip.Proto

/-- The sixteen standard return codes in the order of their numbers. -/
def standardCodes : List ReturnCode :=
  [.ok, .notOk, .unknownService, .unknownMethod, .notReady, .notReachable, .timeout,
    .wrongProtocolVersion, .wrongInterfaceVersion, .malformedMessage, .wrongMessageType,
    .e2eRepeated, .e2eWrongSequence, .e2e, .e2eNotAvailable, .e2eNoNewData]

/-- The number of a return code: its position in the standard list, or the number carried. -/
def codeNumber : ReturnCode → UInt8
  | .reserved x => x
  | .other x => x
  | c => UInt8.ofNat (standardCodes.idxOf c)

/-- The return code a number denotes. -/
def codeOf (x : UInt8) : ReturnCode :=
  match standardCodes[x.toNat]? with
  | some c => c
  | none => if x.toNat ≤ 0x5e then .reserved x else .other x

/-- A return code whose number denotes it; `Reserved(0)` or `Other(0x20)` are not. -/
def CodeOk (c : ReturnCode) : Prop := codeOf (codeNumber c) = c

instance (c : ReturnCode) : Decidable (CodeOk c) := inferInstanceAs (Decidable (_ = _))

/-- The eight header bytes: client, session, protocol version, interface version, message type,
return code. -/
def headerBytes (h : Header) : Bytes :=
  be 2 h.client.val.toNat ++ be 2 h.session.val.toNat ++
    [h.protocol.val, h.interface.val, h.messageType.val, codeNumber h.returnCode]

/-- A SOME/IP message with payload bytes `payload`: service, method, length, header, payload. The
length counts everything after itself. -/
def messageBytes {β : Type} (m : Message β) (payload : Bytes) : Bytes :=
  be 2 m.service.val.toNat ++ be 2 m.method.val.toNat ++ be 4 (8 + payload.length) ++
    headerBytes m.header ++ payload

/-- The payload serializer `b` writes `v` as `bs`, reports the number of bytes, and its size hint
is that number. -/
def Payload {β : Type} (b : Ser β) (v : β) (bs : Bytes) : Prop :=
  b.Good v bs ∧ b.sizeHint v = bs.length

end Rsomeip.Spec
