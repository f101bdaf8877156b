import Verif.Rt.Node

/-!
# Endpoints on a network

Several programs, each with one endpoint on a UDP socket (`Verif.Rt.Node`), and a network between
them. The network is the environment of `UdpSocket` (`/repo/rsomeip/src/socket/udp.rs:105-131`) and
not part of the code: it may lose, delay, repeat and reorder datagrams, but does not forge the source
addresses that belong to one of the programs. Everybody else can send whatever they like.
-/

namespace Rsomeip.Rt.Net

/-- The programs, by the address their socket is bound to (`UdpSocket::bind`,
`/repo/rsomeip/src/socket/udp.rs:105-131`), and all datagrams sent by them: source, destination,
contents (`UdpSender::send`, `/repo/rsomeip/src/socket/udp.rs:177-187`). -/
structure State where
  nodes : Addr → Node.State
  sent : List (Addr × Addr × Bytes)

/-- Every program has bound its socket and spawned its endpoint
(`/repo/rsomeip/src/endpoint/v1.rs:112-126`). -/
def init : State where
  nodes _ := Node.init
  sent := []

/-- A step of the program whose socket is bound to an address (`/repo/rsomeip/src/socket/udp.rs:105`). -/
abbrev Action := Addr × Node.Action

/-- The network can deliver this (to `recv_from`, `/repo/rsomeip/src/socket/udp.rs:258`): anything from an
address that is not one of the programs', and what was sent before from there to here. -/
def deliverable (own : Addr → Bool) (s : State) (n : Addr) : Node.Action → Bool
  | .datagram a p => !own a || s.sent.contains (a, n, p)
  | _ => true

/-- One step of the program at address `n`, which may hand a datagram to the network
(`/repo/rsomeip/src/socket/udp.rs:182-186`); `own` says which addresses belong to programs. `none` if
it cannot happen now. -/
def step (own : Addr → Bool) (s : State) (x : Action) : Option (State × Node.Obs) :=
  if own x.1 && deliverable own s x.1 x.2 then
    match Node.step (s.nodes x.1) x.2 with
    | some (t, o) =>
      some ({ nodes := upd s.nodes x.1 t, sent := s.sent ++ o.out.map fun y => (x.1, y.1, y.2) }, o)
    | none => none
  else none

end Rsomeip.Rt.Net
