import Verif.Spec.Udp

/-! # Words for histories of a UDP socket

What a user can tell from a history about the receiving task, the connections and the listeners. -/

namespace Rsomeip.Spec.Udp

open Rt Rt.Udp

/-- The address of the datagram the receiving task is dealing with, and whether it has made a
connection for it: after that it still puts the datagram there, and then the address is known. -/
def busyStep : Option (Addr × Bool) → Action × Obs → Option (Addr × Bool)
  | _, (.datagram a _, _) => some (a, false)
  | some (a, false), (.task, .admitted ..) => some (a, true)
  | some (_, false), (.task, .routed ..) => none
  | some (_, false), (.task, .lost ..) => none
  | some (_, true), (.task, .none) => none
  | b, _ => b

/-- The address of the datagram the receiving task is dealing with. -/
def busy (tr : Trace) : Option Addr := (tr.foldl busyStep none).map Prod.fst

/-- The receiving task is waiting for the next datagram. -/
def Waiting (tr : Trace) : Prop := busy tr = none ∧ (.failure, .none) ∉ tr

/-- Connection `c` to `a` was made: by `connect`, or by a packet of a new sender. -/
def Made (tr : Trace) (c : Nat) (a : Addr) : Prop :=
  (.connect a, .connection c a) ∈ tr ∨ ∃ p, (.task, .admitted a p c) ∈ tr

/-- The user got connection `c` and has not dropped its receiver. -/
def ReceiverOpen (c : Nat) (tr : Trace) : Prop :=
  c ∈ (connections tr).map Prod.fst ∧ (.dropReceiver c, .none) ∉ tr

/-- The user got listener `l` and has not dropped it. -/
def ListenerOpen (l : Nat) (tr : Trace) : Prop :=
  l ∈ (listeners tr).map Prod.fst ∧ (.dropListener l, .none) ∉ tr

/-- The newest listener, and the connections made for listener `l` while it was the newest. -/
def offerStep (l : Nat) : Option Nat × List (Nat × Addr) → Action × Obs →
    Option Nat × List (Nat × Addr)
  | (_, q), (.listen _, .listening l') => (some l', q)
  | (n, q), (.task, .admitted a _ c) => (n, if n = some l then q ++ [(c, a)] else q)
  | st, _ => st

/-- The connections made for listener `l`, in order. -/
def offered (l : Nat) (tr : Trace) : List (Nat × Addr) := (tr.foldl (offerStep l) (none, [])).2

/-- The connections that `accept` returned on listener `l`, in order. -/
def takenFrom (l : Nat) (tr : Trace) : List (Nat × Addr) :=
  tr.filterMap fun
    | (.accept l', .connection c a) => if l' = l then some (c, a) else none
    | _ => none

/-- The connections made for listener `l` that `accept` has not returned. -/
def pending (l : Nat) (tr : Trace) : List (Nat × Addr) := (offered l tr).drop (takenFrom l tr).length

/-- The receiver of connection `c` has been dropped, by its user, or with the listener it was pending
in. -/
def Discarded (c : Nat) (tr : Trace) : Prop :=
  (.dropReceiver c, .none) ∈ tr ∨
    ∃ l, c ∈ (pending l tr).map Prod.fst ∧ (.dropListener l, .none) ∈ tr

/-- `recv` has accounted for every packet put into connection `c`. -/
def AllRead (c : Nat) (tr : Trace) : Prop := (seen c tr).length = (into c tr).length

instance (tr : Trace) : Decidable (Waiting tr) := inferInstanceAs (Decidable (_ ∧ _))
instance (c : Nat) (tr : Trace) : Decidable (ReceiverOpen c tr) := inferInstanceAs (Decidable (_ ∧ _))
instance (l : Nat) (tr : Trace) : Decidable (ListenerOpen l tr) := inferInstanceAs (Decidable (_ ∧ _))
instance (c : Nat) (tr : Trace) : Decidable (AllRead c tr) := inferInstanceAs (Decidable (_ = _))

end Rsomeip.Spec.Udp
