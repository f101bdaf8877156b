import Verif.Rt.TcpNet
import Verif.Spec.TcpNode
import Verif.Spec.Net

/-! # What a history of several endpoints connected by TCP shows -/

namespace Rsomeip.Spec.TcpNet

open Rt Rt.TcpNet

abbrev Trace := List (Action × TcpNode.Obs)

/-- What happened at address `n`. -/
def at_ (n : Addr) (tr : Trace) : Spec.TcpNode.Trace :=
  tr.filterMap fun e => if e.1.1 = n then some (e.1.2.1, e.2) else none

/-- The stub or proxy action returned message `m` of the peer at `a`. -/
inductive Returns (tr : Spec.Ep.Trace) : Ep.Action → Ep.Obs → Msg → Addr → Prop where
  | stub (k : Nat) (m : Msg) (a : Addr) : Returns tr (.stubRecv k) (.message m a) m a
  | proxy (p i : Nat) (id : Someip.InterfaceId) (m : Msg) (a : Addr)
    (h : Spec.Ep.Shown tr (.proxying p i id a)) : Returns tr (.proxyRecv p) (.reply m) m a

/-- Connections belong together: the two ends of a TCP connection, each given by program and number. -/
structure Pairs (pair : Addr → Nat → Option (Addr × Nat)) (tr : Trace) : Prop where
  /-- Each is the other end of the other. -/
  symm : ∀ n c m d, pair n c = some (m, d) → pair m d = some (n, c)
  /-- They are known to their programs as connections to the other program. -/
  opened : ∀ n c m d, pair n c = some (m, d) →
    Spec.Ep.Shown (Spec.TcpNode.app (at_ n tr)) (.opened c m)

end Rsomeip.Spec.TcpNet
