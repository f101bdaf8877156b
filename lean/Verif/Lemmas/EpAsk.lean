import Verif.Lemmas.EpMade

/-! # Requests and answers -/

namespace Rsomeip.Rt.Ep

open Someip (InterfaceId)
open Spec Spec.Ep

theorem requests_snoc (tr : Trace) (a : Action) (o : Obs) :
    requests (tr ++ [(a, o)]) = requests tr ++
      (match a with
      | .serve id => [.serve id]
      | .proxy id b => [.proxy id b]
      | _ => []) := by
  rw [requests, List.filterMap_append]
  congr 1
  cases a <;> rfl

theorem answered_snoc (tr : Trace) (a : Action) (o : Obs) :
    answered (tr ++ [(a, o)]) = answered tr ++
      (match o with
      | .serving _ _ id => [.serve id]
      | .serveFailed id _ => [.serve id]
      | .proxying _ _ id b => [.proxy id b]
      | .proxyFailed id b _ => [.proxy id b]
      | _ => []) := by
  rw [answered, List.filterMap_append]
  congr 1
  cases o <;> rfl

/-- The request the endpoint task is dealing with. -/
def EpPc.current : EpPc → List Request
  | .serveCheck id => [.serve id]
  | .serveListen id => [.serve id]
  | .serveShare id _ => [.serve id]
  | .serveTake id _ _ => [.serve id]
  | .proxyCheck id a => [.proxy id a]
  | .proxyGet id a => [.proxy id a]
  | .proxyConnect id a => [.proxy id a]
  | .proxyShare id a _ => [.proxy id a]
  | .proxyTake id a _ _ => [.proxy id a]
  | _ => []

/-- The requests in the endpoint's queue. -/
def waiting (cmds : List EpCmd) : List Request :=
  cmds.filterMap fun x => match x with
    | .serve id => some (.serve id)
    | .proxy id a => some (.proxy id a)
    | .connect .. => none

theorem waiting_append (x y : List EpCmd) : waiting (x ++ y) = waiting x ++ waiting y :=
  List.filterMap_append ..

theorem asked {dg : Bool} {s : State} {tr : Trace} (e : Exec (step dg) init tr s) :
    answered tr ++ s.pc.current ++ waiting s.cmds = requests tr := by
  induction e with
  | nil => rfl
  | @snoc tr s s' a o e hs ih =>
    rw [requests_snoc, answered_snoc, ← ih]
    cases move_of_step hs
    case proxyRecv p x b q ha hq =>
      by_cases hb : (s.proxies p).remote = b <;> simp [hb]
    all_goals clear hs ih
    all_goals simp only [waiting_append, List.append_nil]
    all_goals first
      | rfl
      | simp [*, EpPc.current, waiting]

end Rsomeip.Rt.Ep
