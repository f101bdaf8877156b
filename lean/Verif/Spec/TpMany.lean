import Verif.Spec.Tp
import Verif.Spec.Message

/-! # Specification: several segmented messages under way at the same time

The library joins segments; which segments belong together is left to the program that receives them.
Here is the obvious such program: it keeps one open message for each combination of service, method,
client and session. -/

namespace Rsomeip.Spec.Many

open Proto

/-- What tells messages apart. -/
abbrev Ident := ServiceId × MethodId × ClientId × SessionId

/-- The identity of a message or segment. -/
def ident {β : Type} (m : Message β) : Ident := (m.service, m.method, m.header.client, m.header.session)

/-- The messages that have been begun. -/
abbrev Open := Ident → Option (Message TpHeader)

/-- Nothing has been begun. -/
def nothing : Open := fun _ => none

/-- Keep a message that expects more segments; hand out one that does not. -/
def finish (o : Open) (m : Message TpHeader) : Open × Option (Message Bytes) :=
  if m.body.moreSegments then (fun i => if i = ident m then some m else o i, none)
  else (fun i => if i = ident m then none else o i, some (Message.unwrapSegment m))

/-- A segment arrives: one at offset zero begins a message, another one is joined to the message that
is open, and ignored if it does not fit. -/
def onSegment (o : Open) (m : Message TpHeader) : Open × Option (Message Bytes) :=
  if m.body.offset = 0 then finish o m
  else match o (ident m) with
    | none => (o, none)
    | some cur =>
      match cur.body.join m.body with
      | (.ok (), h) => finish o (cur.withBody h)
      | (.error _, _) => (o, none)

/-- A packet arrives. -/
def onPacket (o : Open) (p : Bytes) : Open × Option (Message Bytes) :=
  match Message.de TpHeader.de p with
  | (.ok m, _) => onSegment o m
  | _ => (o, none)

/-- The messages handed out while packets arrive. -/
def handedOut (o : Open) : List Bytes → List (Message Bytes)
  | [] => []
  | p :: ps => (onPacket o p).2.toList ++ handedOut (onPacket o p).1 ps

/-- A message sent in segments: the message, the limit and the segments. -/
structure Sent where
  message : Message Bytes
  limit : Nat
  segments : List TpHeader

/-- The segments are those the library makes of the message, and the message is one that can be
sent. -/
def Sent.Proper (x : Sent) : Prop :=
  16 ≤ x.limit ∧ CodeOk x.message.header.returnCode ∧ 12 + x.message.body.length < 2 ^ 32 ∧
    Splits x.limit x.message.wrapSegment.body x.segments

/-- The segments as messages. -/
def Sent.parts (x : Sent) : List (Message TpHeader) := x.segments.map x.message.withBody

/-- The packets are those of the segments. -/
def PacketsOf (parts : List (Message TpHeader)) (ps : List Bytes) : Prop :=
  parts.map (GenericMessage.toBytes Header.ser TpHeader.ser) = ps.map .ok

end Rsomeip.Spec.Many
