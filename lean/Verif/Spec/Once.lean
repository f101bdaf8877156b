import Verif.Spec.Net

/-! # How often something is sent and arrives -/

namespace Rsomeip

/-- The datagrams sent to `b`, in order. -/
def Spec.Node.outTo (b : Rt.Addr) (tr : Spec.Node.Trace) : List Bytes :=
  (Spec.Node.out tr).filterMap fun x => if x.1 = b then some x.2 else none

namespace Spec.Net

open Rt Spec.Node

/-- The messages that `send` and `send_to` have accepted for connections to `b`, in order. -/
def acceptedFor (b : Addr) (tr : Spec.Ep.Trace) : List Msg :=
  tr.filterMap fun e => match e.2 with
    | .accepted c m => if tr.any (fun x => decide (x.2 = .opened c b)) then some m else none
    | _ => none

/-- Datagrams from `a` to `b` may be lost, delayed and reordered, but none arrives more often than it
was sent. -/
def NoRepeats (tr : Spec.Net.Trace) (a b : Addr) : Prop :=
  ∀ p, (arrivals a (at_ b tr)).count p ≤ (outTo b (at_ a tr)).count p

end Spec.Net

end Rsomeip
