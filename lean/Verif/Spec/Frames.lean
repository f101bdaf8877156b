import Verif.Spec.Wire
import Verif.Someip.Message

/-! # What a packet contains -/

namespace Rsomeip.Spec

open Rsomeip.Someip

/-- The eight bytes behind the length field: client, session, protocol version, interface version,
message type, return code. -/
def head (m : Someip.Message Bytes) : Bytes :=
  be 2 m.client.toNat ++ be 2 m.session.toNat ++
    [m.protocol, m.interface, m.messageType.asU8, m.returnCode.asU8]

/-- A message on the wire whose length field says `8 + n`. -/
def frameWith (m : Someip.Message Bytes) (n : Nat) : Bytes :=
  be 2 m.service.toNat ++ be 2 m.method.toNat ++ be 4 (8 + n) ++ head m ++ m.payload

/-- A message on the wire. -/
def frame (m : Someip.Message Bytes) : Bytes := frameWith m m.payload.length

/-- The message type and return code are the ones their numbers denote; `Unknown(0)` is not. -/
def Normal (m : Someip.Message Bytes) : Prop :=
  MessageType.fromU8 m.messageType.asU8 = m.messageType ∧
    ReturnCode.fromU8 m.returnCode.asU8 = m.returnCode

/-- The packet `b` consists of the messages `ms`: whole messages one after the other, except that
the payload of the last one may be shorter than its length field says. -/
inductive Frames : Bytes → List (Someip.Message Bytes) → Prop where
  | nil : Frames [] []
  | cut (m : Someip.Message Bytes) (n : Nat) (hm : Normal m) (hn : 8 + n < 2 ^ 32)
      (hp : m.payload.length < n) : Frames (frameWith m n) [m]
  | cons (m : Someip.Message Bytes) (hm : Normal m) (hn : 8 + m.payload.length < 2 ^ 32) {b : Bytes}
      {ms : List (Someip.Message Bytes)} (h : Frames b ms) : Frames (frame m ++ b) (m :: ms)

end Rsomeip.Spec
