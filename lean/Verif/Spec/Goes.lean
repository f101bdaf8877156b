import Verif.Spec.FairNode
import Verif.Spec.FairTcpNet

/-! # What happens when nothing is asked for any more

The tasks go on, and the users of handles read what is there. Nothing arrives from the outside, no call
other than `recv` and `recv_from` is made, and nothing fails. -/

namespace Rsomeip.Spec

open Rt

/-- A step of the endpoint in which a task goes on without failure, or a user reads. -/
def Ep.Goes : Rt.Ep.Action → Prop
  | .ep ok | .sent _ ok => ok = true
  | .accept _ _ | .lisShare _ | .lisCmd _ | .packet _ _ | .route _ | .connCmd _ | .stubRecv _
  | .proxyRecv _ => True
  | _ => False

/-- On a UDP socket. What does not fit into a datagram cannot be sent
(`/repo/rsomeip/src/socket/udp.rs:178-180`). -/
def Node.Goes : Rt.Node.Action × Rt.Node.Obs → Prop
  | (.app (.sent _ false), o) => ∃ b, o.ep = some (.wire b false) ∧ 1400 < b.length
  | (.app x, _) => Ep.Goes x
  | (.task, _) => True
  | _ => False

/-- On a TCP socket: what has arrived is read, and the operating system takes bytes. -/
def TcpNode.Goes : Rt.TcpNode.Action → Prop
  | .app (.accept _ _) => False
  | .app x => Ep.Goes x
  | .read _ (.read _) => True
  | .write _ (.wrote n) => 0 < n
  | _ => False

/-- Among several programs that are connected by TCP: moreover, what was written at one end of a connection
arrives at the other, and connections from another program are accepted. `tr` is what has happened before. -/
def TcpNet.Goes (own : Addr → Bool) (tr : TcpNet.Trace) (x : Rt.TcpNet.Action) : Prop :=
  TcpNode.Goes x.2.1 ∨ (∃ l m, own m = true ∧ x.2.1 = .app (.accept l m)) ∨
    ∃ c b m, own m = true ∧ x.2.1 = .arrive c b ∧
      Ep.Shown (TcpNode.app (TcpNet.at_ x.1 tr)) (.opened c m)

end Rsomeip.Spec
