import Verif.Proto.Sample
import Verif.Rt.Exec
import Verif.Spec.Message

/-! # Specification of the conversation of the sample programs -/

namespace Rsomeip.Spec.Sample

open Proto Proto.Sample

/-- The `k`-th request, counted from zero: the sessions go 1, 2, …, 65535, 1, 2, … -/
def question (k : Nat) : Message Bytes where
  service := ⟨0x1234⟩
  method := ⟨0x0421⟩
  header := ⟨⟨1⟩, ⟨UInt16.ofNat (k % 65535 + 1)⟩, ⟨1⟩, ⟨0⟩, ⟨0⟩, .ok⟩
  body := [0, 1, 2, 3, 4, 5, 6, 7, 8, 9]

/-- The response to a request: the same message, marked as response. -/
def reply (q : Message Bytes) : Message Bytes :=
  { q with header := { q.header with messageType := ⟨0x80⟩ } }

/-- The message is a request to the sample service. -/
def IsRequest (q : Message Bytes) : Prop :=
  q.service = ⟨0x1234⟩ ∧ q.method = ⟨0x0421⟩ ∧ q.header.protocol = ⟨1⟩ ∧ q.header.interface = ⟨0⟩ ∧
    q.messageType = .request

/-- The message is a response, or an error response, of the sample service. -/
def IsAnswer (m : Message Bytes) : Prop :=
  m.service = ⟨0x1234⟩ ∧ m.method = ⟨0x0421⟩ ∧ m.header.protocol = ⟨1⟩ ∧ m.header.interface = ⟨0⟩ ∧
    (m.messageType = .response ∨ m.messageType = .error)

/-- What happened in an execution. -/
abbrev Trace := List (Action × Obs)

/-- The requests sent, in order. -/
def asked (tr : Trace) : List (Message Bytes) :=
  tr.filterMap fun | (_, .asked m) => some m | _ => none

/-- The requests served with their responses, in order. -/
def served (tr : Trace) : List (Message Bytes × Message Bytes) :=
  tr.filterMap fun | (_, .served q a) => some (q, a) | _ => none

/-- The responses received, in order. -/
def heard (tr : Trace) : List (Message Bytes) :=
  tr.filterMap fun | (_, .heard m) => some m | _ => none

/-- One of the programs panicked. -/
def Panicked (tr : Trace) : Prop := ∃ x ∈ tr, x.2 = .askerPanics ∨ x.2 = .answererPanics

/-- A stranger sends something. -/
def Foreign : Action → Prop
  | .toAnswerer _ | .toAsker _ => True
  | _ => False

instance : DecidablePred Foreign := fun a => by
  cases a <;> first | exact .isTrue trivial | exact .isFalse id

/-- Nobody but the two programs sends anything. -/
def NoStrangers (tr : Trace) : Prop := ∀ x ∈ tr, ¬ Foreign x.1

/-- Something the programs do themselves. -/
def Own : Action → Prop
  | .ask | .serve _ | .hear _ => True
  | _ => False

/-- Moreover, the network loses and repeats nothing. -/
def Faithful (tr : Trace) : Prop := ∀ x ∈ tr, Own x.1

end Rsomeip.Spec.Sample
