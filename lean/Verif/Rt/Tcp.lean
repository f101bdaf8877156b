import Verif.Rt.Tasks

/-!
# TCP connections

Transcription of `/repo/rsomeip/src/socket/tcp.rs`. The operating system is an arbitrary list of
answers; the byte stream is a list of bytes.
-/

namespace Rsomeip.Rt.Tcp

/-- The operating system's answers in one round of the loop in `TcpSender::send`
(`/repo/rsomeip/src/socket/tcp.rs:133-147`): `writable()` reports `WouldBlock`, `writable()` fails
otherwise, `try_write` fails (with any error, `WouldBlock` included), or `try_write` takes up to
`n` of the bytes offered. -/
inductive WriteAnswer where
  | wouldBlock
  | broken
  | failed
  | wrote (n : Nat)
  deriving DecidableEq, Repr

/-- Result of `TcpSender::send` (`/repo/rsomeip/src/socket/tcp.rs:130-150`); `pending` means that
the answers given so far do not end the loop, `panic` is the slice `buffer[sent..]` out of range. -/
inductive SendResult where
  | ok
  | error (buffer : Bytes)
  | pending
  | panic
  deriving DecidableEq, Repr

/-- The loop of `TcpSender::send` (`/repo/rsomeip/src/socket/tcp.rs:132-148`): `sent` bytes of
`buffer` have been taken so far, `stream` is everything written to the stream. Simplification:
`try_write` never takes more bytes than offered. -/
def send (buffer : Bytes) : Nat → Bytes → List WriteAnswer → SendResult × Bytes
  | _, stream, [] => (.pending, stream)
  | sent, stream, .wouldBlock :: os => send buffer sent stream os
  | _, stream, .broken :: _ => (.error buffer, stream)
  | sent, stream, .failed :: _ =>
    if buffer.length < sent then (.panic, stream) else (.error buffer, stream)
  | sent, stream, .wrote n :: os =>
    if buffer.length < sent then (.panic, stream)
    else
      let taken := (buffer.drop sent).take n
      let sent' := sent + taken.length
      if sent' < buffer.length then send buffer sent' (stream ++ taken) os
      else (.ok, stream ++ taken)

/-- Sending several buffers through one connection, as `SenderTask::commands` does: stop at the
first failure (`/repo/rsomeip/src/endpoint/v1/connection.rs:397-424`). Each buffer comes with the
operating system's answers while it is being sent. -/
def sendMany : Bytes → List (Bytes × List WriteAnswer) → SendResult × Bytes
  | stream, [] => (.ok, stream)
  | stream, (b, os) :: rest =>
    match send b 0 stream os with
    | (.ok, stream') => sendMany stream' rest
    | r => r

/-- Size of the receive buffer (`/repo/rsomeip/src/socket/tcp.rs:166`). -/
def readSize : Nat := 1400

/-- The operating system's answers in one round of the loop in `TcpReceiver::recv`
(`/repo/rsomeip/src/socket/tcp.rs:174-184`): `readable()` reports `WouldBlock`, `readable()` fails
otherwise, `try_read` fails (with any error, `WouldBlock` included), or `try_read` gives up to `n`
of the bytes that arrived. -/
inductive ReadAnswer where
  | wouldBlock
  | broken
  | failed
  | read (n : Nat)
  deriving DecidableEq, Repr

/-- `TcpReceiver::recv` (`/repo/rsomeip/src/socket/tcp.rs:172-187`) when `stream` is what has
arrived and was not read yet: the result (`none`: still waiting), what is left of the stream, and
the answers not used. `try_read` fills at most the buffer; it gives nothing at the end of the
stream. -/
def recv : Bytes → List ReadAnswer → Option Recv × Bytes × List ReadAnswer
  | stream, [] => (none, stream, [])
  | stream, .wouldBlock :: os => recv stream os
  | stream, .broken :: os => (some .closed, stream, os)
  | stream, .failed :: os => (some .closed, stream, os)
  | stream, .read n :: os =>
    let got := stream.take (min n readSize)
    (some (.packet got), stream.drop got.length, os)

/-- What repeated calls of `TcpReceiver::recv` return, as `ReceiverTask::recv` makes them
(`/repo/rsomeip/src/endpoint/v1/connection.rs:331-360`, `/repo/rsomeip/src/socket/tcp.rs:172-187`),
until the answers are used up. -/
def results (stream : Bytes) (os : List ReadAnswer) : List Recv :=
  match os with
  | [] => []
  | .wouldBlock :: os => results stream os
  | .broken :: os => .closed :: results stream os
  | .failed :: os => .closed :: results stream os
  | .read n :: os =>
    .packet (stream.take (min n readSize)) :: results (stream.drop (min n readSize)) os

end Rsomeip.Rt.Tcp
