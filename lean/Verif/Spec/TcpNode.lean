import Verif.Rt.TcpNode
import Verif.Spec.Node

/-! # What a history of an endpoint on a TCP socket shows -/

namespace Rsomeip.Spec.TcpNode

open Rt Rt.TcpNode

abbrev Trace := List (Action × Obs)

/-- The part of the history that concerns the endpoint and its user. -/
def app (tr : Trace) : Spec.Ep.Trace := tr.filterMap fun x => x.2.ep

/-- What was written to the stream of connection `c`. -/
def written (c : Nat) (tr : Trace) : Bytes :=
  tr.flatMap fun x => match x.2.out with
    | some (d, b) => if d = c then b else []
    | none => []

/-- What arrived on the stream of connection `c`. -/
def arrived (c : Nat) (tr : Trace) : Bytes :=
  tr.flatMap fun x => match x.1 with
    | .arrive d b => if d = c then b else []
    | _ => []

/-- A message that can arrive as it was: message type and return code are not given as `Unknown` with
the number of a known one, and the length field can express the length. -/
def Plain (m : Msg) : Prop := Normal m ∧ 8 + m.payload.length < 2 ^ 32

/-- The bytes are whole messages, one after the other. -/
def Whole (b : Bytes) : Prop := ∃ ms : List Msg, (∀ m ∈ ms, Plain m) ∧ b = ms.flatMap frame

end Rsomeip.Spec.TcpNode
