import Verif.Rt.Exec

/-!
# Queues with callers that wait

How calls of `Connection::send` (`/repo/rsomeip/src/endpoint/v1/connection.rs:87-94`) wait for room in
the queue of a connection, with the turns that `tokio::sync::mpsc` gives them. `Rt/Endpoint` leaves the
turns out: there a call that waits may go on whenever there is room.
-/

namespace Rsomeip.Rt.Chan

/-- A bounded channel (`mpsc::channel(1)`, `/repo/rsomeip/src/endpoint/v1/connection.rs:59`): its
capacity, what is in it, the calls that wait for room, in the order in which they began to wait, each
with its message, and whether the receiver still exists. Room that becomes free belongs to the first
waiting calls, whether they are polled or not. -/
structure State (α : Type) where
  cap : Nat
  queue : List α
  line : List (Nat × α)
  rx : Bool
  deriving DecidableEq, Repr

variable {α : Type}

/-- A new channel (`/repo/rsomeip/src/endpoint/v1/connection.rs:59`). -/
def init (cap : Nat) : State α := ⟨cap, [], [], true⟩

/-- What callers (`/repo/rsomeip/src/endpoint/v1/connection.rs:87-94`) and the receiving task (`:397-403`)
can do. Callers are numbered; each makes one call at a time. -/
inductive Action (α : Type) where
  /-- `send` is called and polled for the first time (`connection.rs:87`). -/
  | send (k : Nat) (v : α)
  /-- The future of caller `k` is polled again. -/
  | poll (k : Nat)
  /-- The future of caller `k` is dropped. -/
  | cancel (k : Nat)
  /-- The receiving task takes the next message (`connection.rs:398`). -/
  | recv
  /-- The receiving task ends and drops the receiver (`connection.rs:285-293`). -/
  | close
  deriving DecidableEq, Repr

/-- What an action shows: how the call ends, or what the task receives
(`/repo/rsomeip/src/endpoint/v1/connection.rs:87-94,397-403`). -/
inductive Obs (α : Type) where
  | none
  /-- The call returned `Ok`: the message is in the channel. -/
  | sent (v : α)
  /-- The call is pending. -/
  | waits
  /-- The call returned "not connected". -/
  | failed
  /-- The receiving task has taken the message. -/
  | got (v : α)
  deriving DecidableEq, Repr

/-- How many calls wait before caller `k`, its message, and the others: the waiters of `mpsc::Sender::send`
(`/repo/rsomeip/src/endpoint/v1/connection.rs:88-90`). -/
def leave (k : Nat) : List (Nat × α) → Option (Nat × α × List (Nat × α))
  | [] => none
  | (j, v) :: l =>
    if j = k then some (0, v, l)
    else
      match leave k l with
      | none => none
      | some (i, w, r) => some (i + 1, w, (j, v) :: r)

/-- One step (`/repo/rsomeip/src/endpoint/v1/connection.rs:87-94,397-403`; the order of waiting calls
is that of tokio's semaphore). -/
def step (s : State α) : Action α → Option (State α × Obs α)
  | .send k v =>
    match leave k s.line with
    | some _ => none
    | none =>
      if s.rx then
        if s.queue.length + s.line.length < s.cap then
          some ({ s with queue := s.queue ++ [v] }, .sent v)
        else some ({ s with line := s.line ++ [(k, v)] }, .waits)
      else some (s, .failed)
  | .poll k =>
    match leave k s.line with
    | none => none
    | some (i, v, r) =>
      if s.rx then
        if s.queue.length + i < s.cap then
          some ({ s with queue := s.queue ++ [v], line := r }, .sent v)
        else some (s, .waits)
      else some ({ s with line := r }, .failed)
  | .cancel k =>
    match leave k s.line with
    | none => none
    | some (_, _, r) => some ({ s with line := r }, .none)
  | .recv =>
    match s.queue with
    | v :: q => some ({ s with queue := q }, .got v)
    | [] => none
  | .close => if s.rx then some ({ s with rx := false, queue := [] }, .none) else none

end Rsomeip.Rt.Chan
