import Verif.Proto.Endpoint
import Verif.Bytes.Universe

/-! # Model of the sample programs (`/repo/rsomeip-proto/examples`)

Two programs that talk over UDP: one sends requests and waits for responses, the other answers
requests. Modelled are the loops of both programs and the network between them, which may lose,
duplicate, reorder and bring in datagrams. Not modelled: failures of the sockets themselves, the
second the first program sleeps between requests, and the `Display` text printed (the messages printed
are observations). -/

namespace Rsomeip.Proto.Sample

/-- Encoding of the body, a `Vec<u8>` (`/repo/rsomeip-proto/examples/request-sample.rs:11`). -/
def body : Ser Bytes := Ser.vec Ser.u8

/-- Decoding of the body, a `Vec<u8>` (`/repo/rsomeip-proto/examples/request-sample.rs:11`). -/
def bodyDe : Dec Bytes := Dec.vec Dec.u8

/-- `SAMPLE_SERVICE_ID` (`/repo/rsomeip-proto/examples/common/mod.rs:5`). -/
def service : ServiceId := ⟨0x1234⟩

/-- `SAMPLE_METHOD_ID` (`/repo/rsomeip-proto/examples/common/mod.rs:8`). -/
def method : MethodId := ⟨0x0421⟩

/-- The endpoint of the first program (`/repo/rsomeip-proto/examples/request-sample.rs:18-23`). -/
def proxy : Endpoint :=
  Endpoint.new.withInterface service (Interface.default.withMethod method).intoProxy

/-- The endpoint of the second program (`/repo/rsomeip-proto/examples/response-sample.rs:18-23`). -/
def stub : Endpoint :=
  Endpoint.new.withInterface service (Interface.default.withMethod method).intoStub

/-- The request before its session is set
(`/repo/rsomeip-proto/examples/request-sample.rs:32-36`). `Message::default` has the default header
(`/repo/rsomeip-proto/src/message.rs:602-613,812-816`, `Header.new`). -/
def request : Message Bytes :=
  (Message.withClient (((GenericMessage.new Header.new ([] : Bytes)).withService service).withMethod
    method) ⟨1⟩).withBody [0, 1, 2, 3, 4, 5, 6, 7, 8, 9]

/-- The size of the receive buffers (`/repo/rsomeip-proto/examples/request-sample.rs:56`,
`/repo/rsomeip-proto/examples/response-sample.rs:33`). -/
def bufferSize : Nat := 64

/-- `recv_from` into such a buffer, cut to the size reported
(`/repo/rsomeip-proto/examples/request-sample.rs:56-59,63`): what does not fit is gone. -/
def receive (datagram : Bytes) : Bytes := datagram.take bufferSize

/-- How a turn of a loop (`/repo/rsomeip-proto/examples/request-sample.rs:39-69`,
`response-sample.rs:31-58`) ends: with a value, with a panic (from `expect` or within a call), or never.
-/
inductive Turn (α : Type) where
  | done (a : α)
  | panic
  | hang
  deriving DecidableEq, Repr

/-- `process(message, &mut buffer).expect(..)` into an empty growable buffer
(`/repo/rsomeip-proto/examples/request-sample.rs:45-48`,
`/repo/rsomeip-proto/examples/response-sample.rs:49-52`). -/
def encode (e : Endpoint) (m : Message Bytes) : Turn Bytes :=
  match e.process body m ⟨[], none⟩ with
  | (.done (.ok _), buf) => .done buf.data
  | (.done (.error _), _) => .panic
  | (.panic, _) => .panic
  | (.diverge, _) => .hang

/-- `poll(&mut buffer).expect(..)` (`/repo/rsomeip-proto/examples/request-sample.rs:62-64`,
`/repo/rsomeip-proto/examples/response-sample.rs:39-41`). -/
def decode (e : Endpoint) (b : Bytes) : Turn (Message Bytes) :=
  match (e.poll bodyDe b).1 with
  | .done (.ok m) => .done m
  | .done (.error _) => .panic
  | .panic => .panic
  | .diverge => .hang

/-- One turn of the loop of the second program on a datagram: the request and response printed, and
the bytes sent back (`/repo/rsomeip-proto/examples/response-sample.rs:32-57`). -/
def answer (datagram : Bytes) : Turn (Message Bytes × Message Bytes × Bytes) :=
  match decode stub (receive datagram) with
  | .panic => .panic
  | .hang => .hang
  | .done q =>
    let a := q.withMessageType .response
    match encode stub a with
    | .panic => .panic
    | .hang => .hang
    | .done b => .done (q, a, b)

/-- Where the first program is: about to send a request, waiting for a datagram, or no longer running
(`/repo/rsomeip-proto/examples/request-sample.rs:39-69`). -/
inductive Place where
  | ready | waiting | stopped
  deriving DecidableEq, Repr

/-- Where a datagram came from: the first program, or somebody else
(`/repo/rsomeip-proto/examples/response-sample.rs:34`, `remote_address`). -/
inductive Source where
  | asker | stranger
  deriving DecidableEq, Repr

/-- Both programs and the datagrams between them
(`/repo/rsomeip-proto/examples/request-sample.rs:29-70`,
`/repo/rsomeip-proto/examples/response-sample.rs:29-59`). -/
structure State where
  session : SessionId
  asker : Place
  answerer : Bool
  toAnswerer : List (Source × Bytes)
  toAsker : List Bytes
  deriving DecidableEq, Repr

/-- Both programs have just been started (`/repo/rsomeip-proto/examples/request-sample.rs:13-31`,
`/repo/rsomeip-proto/examples/response-sample.rs:13-26`). -/
def init : State := ⟨.enabled, .ready, true, [], []⟩

/-- What may happen (`/repo/rsomeip-proto/examples/request-sample.rs:39-69`, `response-sample.rs:31-58`).
`serve i` and `hear i`: the program receives the `i`-th datagram under way. The others are done by the
network and by strangers. -/
inductive Action where
  | ask
  | serve (i : Nat)
  | hear (i : Nat)
  | loseRequest (i : Nat)
  | loseResponse (i : Nat)
  | repeatRequest (i : Nat)
  | repeatResponse (i : Nat)
  | toAnswerer (b : Bytes)
  | toAsker (b : Bytes)
  deriving DecidableEq, Repr

/-- What the programs print (`/repo/rsomeip-proto/examples/request-sample.rs:42,65`,
`response-sample.rs:42,46`), or that one of them panicked. -/
inductive Obs where
  | asked (m : Message Bytes)
  | served (q a : Message Bytes)
  | heard (m : Message Bytes)
  | askerPanics
  | answererPanics
  | silent
  deriving DecidableEq, Repr

/-- One turn of one of the loops, up to or from the blocking `recv_from`
(`/repo/rsomeip-proto/examples/request-sample.rs:39-69`,
`/repo/rsomeip-proto/examples/response-sample.rs:31-58`), or an action of the network. A call that never
returned would have no step. The answerer sends to the address the request came from; what it sends to
strangers is not kept. -/
def step (s : State) : Action → Option (State × Obs)
  | .ask =>
    if s.asker = .ready then
      let m := Message.withSession request s.session.increment.1
      match encode proxy m with
      | .done b =>
        some ({ s with session := s.session.increment.2, asker := .waiting,
                       toAnswerer := s.toAnswerer ++ [(.asker, b)] }, .asked m)
      | .panic => some ({ s with session := s.session.increment.2, asker := .stopped }, .askerPanics)
      | .hang => none
    else none
  | .serve i =>
    if s.answerer then
      match s.toAnswerer[i]? with
      | none => none
      | some (src, b) =>
        let s := { s with toAnswerer := s.toAnswerer.eraseIdx i }
        match answer b with
        | .done (q, a, r) =>
          some ({ s with toAsker := if src = .asker then s.toAsker ++ [r] else s.toAsker },
            .served q a)
        | .panic => some ({ s with answerer := false }, .answererPanics)
        | .hang => none
    else none
  | .hear i =>
    if s.asker = .waiting then
      match s.toAsker[i]? with
      | none => none
      | some b =>
        let s := { s with toAsker := s.toAsker.eraseIdx i }
        match decode proxy (receive b) with
        | .done m => some ({ s with asker := .ready }, .heard m)
        | .panic => some ({ s with asker := .stopped }, .askerPanics)
        | .hang => none
    else none
  | .loseRequest i =>
    if i < s.toAnswerer.length then
      some ({ s with toAnswerer := s.toAnswerer.eraseIdx i }, .silent)
    else none
  | .loseResponse i =>
    if i < s.toAsker.length then
      some ({ s with toAsker := s.toAsker.eraseIdx i }, .silent)
    else none
  | .repeatRequest i =>
    match s.toAnswerer[i]? with
    | none => none
    | some d => some ({ s with toAnswerer := s.toAnswerer ++ [d] }, .silent)
  | .repeatResponse i =>
    match s.toAsker[i]? with
    | none => none
    | some d => some ({ s with toAsker := s.toAsker ++ [d] }, .silent)
  | .toAnswerer b => some ({ s with toAnswerer := s.toAnswerer ++ [(.stranger, b)] }, .silent)
  | .toAsker b => some ({ s with toAsker := s.toAsker ++ [b] }, .silent)

end Rsomeip.Proto.Sample
