import Verif.Rt.Node
import Verif.Spec.Endpoint
import Verif.Spec.Udp

/-! # What a history of an endpoint on a UDP socket shows -/

namespace Rsomeip.Spec.Node

open Rt Rt.Node

abbrev Trace := List (Action × Obs)

/-- The part of the history that concerns the endpoint and its user. -/
def app (tr : Trace) : Spec.Ep.Trace :=
  tr.filterMap fun
    | (.app x, o) => o.ep.map fun w => (x, w)
    | _ => none

/-- The part of the history that concerns the socket. -/
def socket (tr : Trace) : Spec.Udp.Trace := tr.flatMap fun x => x.2.udp

/-- What was handed to the operating system for sending, with the destination. -/
def out (tr : Trace) : List (Addr × Bytes) := tr.flatMap fun x => x.2.out

/-- The packets connection `c` of the endpoint received, in order. -/
def reads (c : Nat) (tr : Spec.Ep.Trace) : List Bytes :=
  tr.filterMap fun
    | (.packet d (.packet b), _) => if d = c then some b else none
    | _ => none

/-- The datagrams from `a` handed over by the operating system, each cut to 1400 bytes. -/
def arrivals (a : Addr) (tr : Trace) : List Bytes :=
  tr.filterMap fun
    | (.datagram b p, _) => if b = a then some (p.take 1400) else none
    | _ => none

/-- Everything put into channels of stubs and proxies, with the address reported for it. -/
def routed (tr : Spec.Ep.Trace) : List (Msg × Addr) :=
  tr.filterMap fun e => match e.2 with
    | .routed _ m a => some (m, a)
    | _ => none

/-- What the stub or proxy handed out by the event returned in the course of the history, with the
address it came from. -/
def returnedBy (tr : Spec.Ep.Trace) : Ep.Obs → List (Msg × Addr)
  | .serving k _ _ => Spec.Ep.stubGot k tr
  | .proxying p _ _ r => (Spec.Ep.proxyGot p tr).map fun m => (m, r)
  | _ => []

/-- Everything that stubs and proxies returned. -/
def returned (tr : Spec.Ep.Trace) : List (Msg × Addr) := tr.flatMap fun e => returnedBy tr e.2

end Rsomeip.Spec.Node
