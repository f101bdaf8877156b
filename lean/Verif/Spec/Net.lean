import Verif.Rt.Net
import Verif.Spec.Node

/-! # What a history of several endpoints shows -/

namespace Rsomeip.Spec.Net

open Rt Rt.Net

abbrev Trace := List (Action × Node.Obs)

/-- What happened at address `n`. -/
def at_ (n : Addr) (tr : Trace) : Spec.Node.Trace :=
  tr.filterMap fun e => if e.1.1 = n then some (e.1.2, e.2) else none

/-- A call of `Stub::send_to` with address `b`, or of `Proxy::send` of a proxy for remote `b`, was
given message `m` and returned `Ok`. -/
def SentTo (tr : Spec.Ep.Trace) (b : Addr) (m : Msg) : Prop :=
  (∃ t u k c, tr = t ++ (.stubStep k, .accepted c m) :: u ∧ Spec.Ep.lastCall k t = some (b, m)) ∨
  ∃ p c i id, (.proxySend p m, .accepted c m) ∈ tr ∧ Spec.Ep.Shown tr (.proxying p i id b)

/-- The stub or proxy action returned message `m` of the peer at `a`. -/
inductive Returns (tr : Spec.Ep.Trace) : Node.Action → Node.Obs → Msg → Addr → Prop where
  | stub (k : Nat) (m : Msg) (a : Addr) (us : List (Udp.Action × Udp.Obs)) (out : List (Addr × Bytes)) :
    Returns tr (.app (.stubRecv k)) ⟨some (.message m a), us, out⟩ m a
  | proxy (p i : Nat) (id : Someip.InterfaceId) (m : Msg) (a : Addr)
    (us : List (Udp.Action × Udp.Obs)) (out : List (Addr × Bytes))
    (h : Spec.Ep.Shown tr (.proxying p i id a)) :
    Returns tr (.app (.proxyRecv p)) ⟨some (.reply m), us, out⟩ m a

end Rsomeip.Spec.Net
