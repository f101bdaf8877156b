import Verif.Conform.Proto
import Verif.Rt.Response
import Verif.Rt.SharedMap
import Verif.Rt.Tcp
import Verif.Rt.Net
import Verif.Spec.Frames

/-!
# The tests of the runtime, run on the model

The unit tests of `/repo/rsomeip/src/{support/sync,support/collections,socket/udp,socket/tcp,endpoint/v1}.rs`:
one `example` for each, except for those that only concern the operating system (`socket_binds_to_*`,
`*_multicast`, and in `tcp.rs` the tests of `connect`, `listen` and `accept`). A test runs under one
schedule; each `example` gives a schedule the model allows under which the calls return what the test
expects. As in `Verif.Conform.Bytes`, they are not proofs of any property.
-/

namespace Rsomeip.Conform

open Rt

/-- What the actions of a schedule show; `none` if the model does not allow it. -/
def shown {σ α ω : Type} (step : σ → α → Option (σ × ω)) (s : σ) (as : List α) : Option (List ω) :=
  (perform step s as).map fun x => x.1.map Prod.snd

/-! ## `support/sync.rs` -/

deriving instance DecidableEq for Response.Obs

/-- `response_send` (`/repo/rsomeip/src/support/sync.rs:105`) -/
example : shown (Response.step (τ := Unit) (ε := Int)) Response.init [.send (.ok ()), .get] =
    some [.none, .got (some (.ok ()))] := by decide

/-- `response_ok` (`/repo/rsomeip/src/support/sync.rs:116`) -/
example : shown (Response.step (τ := Unit) (ε := Int)) Response.init [.ok (), .get] =
    some [.none, .got (some (.ok ()))] := by decide

/-- `response_err` (`/repo/rsomeip/src/support/sync.rs:127`) -/
example : shown (Response.step (τ := Unit) (ε := Int)) Response.init [.err (-1), .get] =
    some [.none, .got (some (.error (-1)))] := by decide

/-- `response_none` (`/repo/rsomeip/src/support/sync.rs:138`) -/
example : shown (Response.step (τ := Unit) (ε := Int)) Response.init [.dropSender, .get] =
    some [.none, .got none] := by decide

/-! ## `support/collections.rs` -/

/-- One whole call. -/
def whole (i : Nat) (op : SharedMap.Op Nat String) : List (SharedMap.Action Nat String) :=
  [.call i op, .lock i, .look i, .change i, .unlock i, .ret i]

/-- The values returned. -/
def values (as : List (SharedMap.Action Nat String)) : Option (List (Option String)) :=
  (shown SharedMap.step SharedMap.init as).map fun os =>
    os.filterMap fun o => match o with
      | .value r => some r
      | .none => none

/-- `shared_map` (`/repo/rsomeip/src/support/collections.rs:150`), the two insertions one after the
other. -/
example : values (whole 0 (.insert 1 "Mercury") ++ whole 1 (.insert 2 "Venus") ++ whole 2 (.get 1) ++
    whole 3 (.remove 1) ++ whole 4 (.get 1)) =
      some [none, none, some "Mercury", some "Mercury", none] := by decide +kernel

/-- `shared_map`, the two insertions at the same time. -/
example : values ([.call 0 (.insert 1 "Mercury"), .call 1 (.insert 2 "Venus"), .lock 1, .look 1, .change 1,
      .unlock 1, .lock 0, .look 0, .ret 1, .change 0, .unlock 0, .ret 0] ++ whole 2 (.get 1) ++
    whole 3 (.remove 1) ++ whole 4 (.get 1)) =
      some [none, none, some "Mercury", some "Mercury", none] := by decide +kernel

/-! ## `socket/udp.rs` -/

/-- `connection_sends_data_to_unicast` (`/repo/rsomeip/src/socket/udp.rs:348`) -/
example : Udp.send (fun _ => true) [1] = (some [1], .ok ()) := by decide

/-- `connection_receives_data_from_unicast` (`/repo/rsomeip/src/socket/udp.rs:428`) -/
example : shown Udp.step Udp.init [.connect 5, .datagram 5 [1], .task, .task, .recv 0] =
    some [.connection 0 5, .none, .none, .routed 5 [1] 0, .packet [1]] := by decide +kernel

/-- `listener_accepts_connections` (`/repo/rsomeip/src/socket/udp.rs:490`) -/
example : shown Udp.step Udp.init
    [.listen 1, .datagram 5 [1], .task, .task, .task, .task, .accept 0, .recv 0] =
      some [.listening 0, .none, .none, .admitted 5 [1] 0, .routed 5 [1] 0, .none, .connection 0 5,
        .packet [1]] := by
  decide +kernel

/-! ## `socket/tcp.rs` -/

/-- `connection_sends_data` (`/repo/rsomeip/src/socket/tcp.rs:265`) -/
example : Tcp.send [1] 0 [] [.wrote 1] = (.ok, [1]) := by decide

/-- `connection_receives_data` (`/repo/rsomeip/src/socket/tcp.rs:289`) -/
example : Tcp.recv [1] [.read 1400] = (some (.packet [1]), [], []) := by decide

/-! ## `endpoint/v1.rs` -/

/-- The addresses of the two endpoints. -/
def two (a : Addr) : Bool := a == 5 || a == 6

/-- The interface of the tests (`/repo/rsomeip/src/endpoint/v1.rs:582,643,693`). -/
def theInterface : Someip.InterfaceId := ⟨0x1234, 1⟩

/-- The request of `service_handles_requests` (`/repo/rsomeip/src/endpoint/v1.rs:603-606`). -/
def request : Msg :=
  (((Someip.Message.new [1]).withService 0x1234).withInterface 1).withType .request

/-- The notification of `service_handles_notifications` (`/repo/rsomeip/src/endpoint/v1.rs:663-666`). -/
def notification : Msg :=
  (((Someip.Message.new [1]).withService 0x1234).withInterface 1).withType .notification

/-- An endpoint at 6 serves the interface and one at 5 makes a proxy to it
(`/repo/rsomeip/src/endpoint/v1.rs:575-600,636-660`). -/
def bothEnds : List Net.Action :=
  [(6, .app (.serve theInterface)), (6, .app (.ep true)), (6, .app (.ep true)), (6, .app (.ep true)),
    (6, .app (.ep true)), (6, .app (.ep true)), (6, .app (.lisCmd 0)), (5, .app (.proxy theInterface 6)),
    (5, .app (.ep true)), (5, .app (.ep true)), (5, .app (.ep true)), (5, .app (.ep true)),
    (5, .app (.ep true)), (5, .app (.ep true)), (5, .app (.connCmd 0))]

/-- What the calls of the application returned. -/
def answers (as : List Net.Action) : Option (List Ep.Obs) :=
  (shown (Net.step two) Net.init as).map fun os => (os.filterMap fun o => o.ep).filter fun o =>
    match o with
      | .serving .. | .proxying .. | .serveFailed .. | .proxyFailed .. | .accepted .. | .sendFailed ..
      | .connectFailed .. | .message .. | .reply .. => true
      | _ => false

/-- `service_handles_requests` (`/repo/rsomeip/src/endpoint/v1.rs:571`) -/
example : answers (bothEnds ++
    [(5, .app (.proxySend 0 request)), (5, .app (.connCmd 0)), (5, .app (.sent 0 true)),
      (6, .datagram 5 (Spec.frame request)), (6, .task), (6, .task), (6, .task), (6, .task),
      (6, .app (.accept 0 5)), (6, .app (.lisShare 0)),
      (6, .app (.packet 0 (.packet (Spec.frame request)))), (6, .app (.route 0)), (6, .app (.route 0)),
      (6, .app (.route 0)), (6, .app (.stubRecv 0)),
      (6, .app (.stubSend 0 5 (request.withType .response))), (6, .app (.stubStep 0)),
      (6, .app (.stubStep 0)), (6, .app (.stubStep 0)), (6, .app (.connCmd 0)), (6, .app (.sent 0 true)),
      (5, .datagram 6 (Spec.frame (request.withType .response))), (5, .task), (5, .task),
      (5, .app (.packet 0 (.packet (Spec.frame (request.withType .response))))), (5, .app (.route 0)),
      (5, .app (.route 0)), (5, .app (.route 0)), (5, .app (.proxyRecv 0))]) =
    some [.serving 0 0 theInterface, .proxying 0 0 theInterface 6, .accepted 0 request,
      .message request 5, .accepted 0 (request.withType .response), .reply (request.withType .response)] := by
  decide +kernel

/-- `service_handles_notifications` (`/repo/rsomeip/src/endpoint/v1.rs:632`): the stub has no
connection yet and asks its endpoint for one. -/
example : answers (bothEnds ++
    [(6, .app (.stubSend 0 5 notification)), (6, .app (.stubStep 0)), (6, .app (.stubStep 0)),
      (6, .app (.ep true)), (6, .app (.ep true)), (6, .app (.stubStep 0)), (6, .app (.stubStep 0)),
      (6, .app (.stubStep 0)), (6, .app (.connCmd 0)), (6, .app (.sent 0 true)),
      (5, .datagram 6 (Spec.frame notification)), (5, .task), (5, .task),
      (5, .app (.packet 0 (.packet (Spec.frame notification)))), (5, .app (.route 0)),
      (5, .app (.route 0)), (5, .app (.route 0)), (5, .app (.proxyRecv 0))]) =
    some [.serving 0 0 theInterface, .proxying 0 0 theInterface 6, .accepted 0 notification,
      .reply notification] := by
  decide +kernel

/-- `duplicate_interfaces_not_allowed` (`/repo/rsomeip/src/endpoint/v1.rs:682`) -/
example : answers
    [(6, .app (.serve theInterface)), (6, .app (.ep true)), (6, .app (.ep true)), (6, .app (.ep true)),
      (6, .app (.ep true)), (6, .app (.ep true)), (6, .app (.proxy theInterface 5)), (6, .app (.ep true)),
      (6, .app (.ep true))] =
    some [.serving 0 0 theInterface, .proxyFailed theInterface 5 .exists] := by
  decide +kernel

end Rsomeip.Conform
