import Verif.Rt.Exec
import Verif.Support.Map

/-!
# Shared maps

Transcription of `/repo/rsomeip/src/support/collections.rs`: any number of threads use clones of one
map. A call takes the mutex, looks the key up, changes the map, releases the mutex and returns; the
steps of different threads interleave arbitrarily.
-/

namespace Rsomeip.Rt.SharedMap

/-- The three calls (`/repo/rsomeip/src/support/collections.rs:77,101,126`). -/
inductive Op (κ ν : Type) where
  | insert (k : κ) (v : ν)
  | get (k : κ)
  | remove (k : κ)
  deriving DecidableEq, Repr

/-- The key a call is about (`/repo/rsomeip/src/support/collections.rs:77,101,126`). -/
def Op.key {κ ν : Type} : Op κ ν → κ
  | .insert k _ => k
  | .get k => k
  | .remove k => k

/-- How far a call has come (`/repo/rsomeip/src/support/collections.rs:77-82,101-107,126-131`):
waiting in `lock()`; holding the lock; having looked the key up; having changed the map; lock
released (the guard is a temporary of the statement), about to return; returned. -/
inductive Phase (κ ν : Type) where
  | waiting (op : Op κ ν)
  | locked (op : Op κ ν)
  | looked (op : Op κ ν) (old : Option ν)
  | changed (op : Op κ ν) (old : Option ν)
  | released (old : Option ν)
  | returned
  deriving DecidableEq, Repr

/-- The map behind `Arc<Mutex<..>>` (`/repo/rsomeip/src/support/collections.rs:32-34`), who holds
the mutex, and the calls made so far, by number. Simplification: poisoning is left out; nothing
panics while the lock is held unless `V::clone` does. -/
structure State (κ ν : Type) where
  map : Map κ ν
  owner : Option Nat
  calls : Nat → Option (Phase κ ν)

/-- `SharedMap::new` (`/repo/rsomeip/src/support/collections.rs:51-55`). -/
def init {κ ν : Type} : State κ ν := ⟨.empty, none, fun _ => none⟩

/-- Steps of the call with a number (`/repo/rsomeip/src/support/collections.rs:77-82,101-107,126-131`). -/
inductive Action (κ ν : Type) where
  | call (i : Nat) (op : Op κ ν)
  | lock (i : Nat)
  | look (i : Nat)
  | change (i : Nat)
  | unlock (i : Nat)
  | ret (i : Nat)
  deriving DecidableEq, Repr

/-- What a step shows: nothing, or the value a call returns
(`/repo/rsomeip/src/support/collections.rs:77,101,126`). -/
inductive Obs (ν : Type) where
  | none
  | value (r : Option ν)
  deriving DecidableEq, Repr

variable {κ ν : Type} [DecidableEq κ]

/-- What a call does to the map once it has looked the key up
(`/repo/rsomeip/src/support/collections.rs:81,105,130`). -/
def effect (m : Map κ ν) : Op κ ν → Map κ ν
  | .insert k v => (m.insert k v).2
  | .get _ => m
  | .remove k => (m.remove k).2

/-- The call with a number moves on (`/repo/rsomeip/src/support/collections.rs:77-82,101-107,126-131`). -/
def State.set (s : State κ ν) (i : Nat) (p : Phase κ ν) : Nat → Option (Phase κ ν) :=
  fun j => if j = i then some p else s.calls j

/-- One step (`/repo/rsomeip/src/support/collections.rs:77-82,101-107,126-131`). The mutex is free or
held by one call. -/
def step (s : State κ ν) : Action κ ν → Option (State κ ν × Obs ν)
  | .call i op =>
    match s.calls i with
    | none => some ({ s with calls := s.set i (.waiting op) }, .none)
    | some _ => none
  | .lock i =>
    match s.calls i, s.owner with
    | some (.waiting op), none =>
      some ({ s with owner := some i, calls := s.set i (.locked op) }, .none)
    | _, _ => none
  | .look i =>
    match s.calls i with
    | some (.locked op) => some ({ s with calls := s.set i (.looked op (s.map.get op.key)) }, .none)
    | _ => none
  | .change i =>
    match s.calls i with
    | some (.looked op old) =>
      some ({ s with map := effect s.map op, calls := s.set i (.changed op old) }, .none)
    | _ => none
  | .unlock i =>
    match s.calls i with
    | some (.changed _ old) => some ({ s with owner := none, calls := s.set i (.released old) }, .none)
    | _ => none
  | .ret i =>
    match s.calls i with
    | some (.released old) => some ({ s with calls := s.set i .returned }, .value old)
    | _ => none

end Rsomeip.Rt.SharedMap
