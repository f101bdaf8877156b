import Verif.Rt.TcpCrash
import Verif.Spec.TcpNet

/-! # What a history of programs connected by TCP that crash shows -/

namespace Rsomeip.Spec.TcpCrash

open Rt Rt.TcpCrash

abbrev Trace := List (Action × TcpNode.Obs)

/-- What happened at address `n` in each of the lives of the program there that have ended, and in the
present one. -/
def story (n : Addr) (tr : Trace) : List Spec.TcpNode.Trace × Spec.TcpNode.Trace :=
  tr.foldl (fun l e => match e.1 with
    | .net m x _ => if m = n then (l.1, l.2 ++ [(x, e.2)]) else l
    | .crash m => if m = n then (l.1 ++ [l.2], []) else l) ([], [])

/-- What happened at `n` since the program there was started last. -/
def life (n : Addr) (tr : Trace) : Spec.TcpNode.Trace := (story n tr).2

/-- What happened at `n` in each of the lives of the program there, the present one last. -/
def lives (n : Addr) (tr : Trace) : List Spec.TcpNode.Trace := (story n tr).1 ++ [(story n tr).2]

/-- Something that happened at `n`, in all lives of the program there. -/
def whole {β : Type} (f : Spec.TcpNode.Trace → List β) (n : Addr) (tr : Trace) : List β :=
  (lives n tr).flatMap f

/-- Connection `d` in life `L` of the program at `n` was made, and all messages for it were accepted, in this
part of the history. -/
def Within (n : Addr) (d : Nat) (L : Spec.TcpNode.Trace) (u : Trace) : Prop :=
  ∀ z o, (z, o) ∈ Spec.TcpNode.app L → (∃ a, o = .opened d a) ∨ (∃ m, o = .accepted d m) →
    ∃ y k w, (.net n y k, w) ∈ u ∧ w.ep = some (z, o)

end Rsomeip.Spec.TcpCrash
