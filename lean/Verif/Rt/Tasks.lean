import Verif.Someip.Message

/-!
# The loops of a connection

Transcription of the receiving and sending halves of a connection
(`/repo/rsomeip/src/endpoint/v1/connection.rs:300-432`), seen alone: what one received packet is
turned into, and what is handed to the socket for each message. The shared tables and the other
tasks are in `Verif.Rt.Endpoint`.
-/

namespace Rsomeip.Rt

/-- The messages of the endpoint layer, `someip::Message<Bytes>`
(`/repo/rsomeip/src/endpoint/v1/connection.rs:17,340`). -/
abbrev Msg := Someip.Message Bytes

/-- Result of `socket::Receiver::recv` (`/repo/rsomeip/src/socket.rs:121-141`). -/
inductive Recv where
  | packet (b : Bytes)
  | lagged (n : Nat)
  | closed
  deriving DecidableEq, Repr

/-- What one round of the loop of `ReceiverTask::recv` does with a result
(`/repo/rsomeip/src/endpoint/v1/connection.rs:331-360`): hand messages on, drop the packet, go on,
or leave the loop. Panics and endless loops of the decoder would show up here too. -/
inductive Round where
  | route (ms : List Msg)
  | drop (e : DeErr)
  | skip
  | stop
  | panic
  | hang
  deriving DecidableEq, Repr

/-- One round of the loop of `ReceiverTask::recv`
(`/repo/rsomeip/src/endpoint/v1/connection.rs:333-358`). -/
def receive : Recv → Round
  | .packet b =>
    match Dec.vec (Someip.Message.de Dec.bytes) b with
    | (.ok ms, _) => .route ms
    | (.err e, _) => .drop e
    | (.panic, _) => .panic
    | (.diverge, _) => .hang
  | .lagged _ => .skip
  | .closed => .stop

/-- The loop of `ReceiverTask::recv` on the results the socket gives, one after the other
(`/repo/rsomeip/src/endpoint/v1/connection.rs:331-360`): the messages handed on, in order, and
whether the loop is still running. Simplification: handing on takes no time here. -/
def receiveAll : List Recv → List Msg × Bool
  | [] => ([], true)
  | r :: rs =>
    match receive r with
    | .route ms => let (ms', on) := receiveAll rs; (ms ++ ms', on)
    | .drop _ => receiveAll rs
    | .skip => receiveAll rs
    | .stop => ([], false)
    | .panic => ([], false)
    | .hang => ([], true)

/-- What `SenderTask::send` hands to the socket for a message
(`/repo/rsomeip/src/endpoint/v1/connection.rs:414-419`): the contents of the buffer, whether or not
serialization succeeded; `none` if serialization panics. `BytesMut` grows as needed. -/
def outgoing (m : Msg) : Option Bytes :=
  match (Someip.Message.ser Ser.bytes).serialize m ⟨[], none⟩ with
  | (.ok _, b) => some b.data
  | (.err _, b) => some b.data
  | (.panic, _) => none

/-- The loop of `SenderTask::commands` on messages
(`/repo/rsomeip/src/endpoint/v1/connection.rs:397-424`), with a socket that accepts a buffer or
fails: the buffers handed to the socket, in order, and whether the loop is still running. -/
def sendAll (socket : Bytes → Bool) : List Msg → List Bytes × Bool
  | [] => ([], true)
  | m :: ms =>
    match outgoing m with
    | none => ([], false)
    | some b =>
      if socket b then
        let (bs, on) := sendAll socket ms
        (b :: bs, on)
      else ([b], false)

end Rsomeip.Rt
