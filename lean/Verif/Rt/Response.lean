import Verif.Rt.Exec

/-!
# Responses

Transcription of `/repo/rsomeip/src/support/sync.rs`: one sender and one receiver of a single
response.
-/

namespace Rsomeip.Rt.Response

/-- State of the pair made by `response_channels` (`/repo/rsomeip/src/support/sync.rs:34-41`): what
is in the channel (`tokio::sync::oneshot`), whether the sender still exists, and whether the receiver
still waits. The value is dropped when nobody will fetch it. -/
structure State (τ ε : Type) where
  value : Option (Except ε τ)
  sender : Bool
  receiver : Bool

/-- `response_channels` (`/repo/rsomeip/src/support/sync.rs:34-41`). -/
def init {τ ε : Type} : State τ ε := ⟨none, true, true⟩

/-- What the owners of the two handles can do. `send`, `ok` and `err` consume the sender, `get`
consumes the receiver (`/repo/rsomeip/src/support/sync.rs:65,86,91,96`). `get` is the moment at which
`get().await` completes. -/
inductive Action (τ ε : Type) where
  | send (r : Except ε τ)
  | ok (v : τ)
  | err (e : ε)
  | dropSender
  | get
  | dropReceiver

/-- What an action shows: nothing, or what `get` returns (`/repo/rsomeip/src/support/sync.rs:65-67`). -/
inductive Obs (τ ε : Type) where
  | none
  | got (r : Option (Except ε τ))

variable {τ ε : Type}

/-- `oneshot::Sender::send` as called at `/repo/rsomeip/src/support/sync.rs:87,92,97`: the value goes
into the channel unless the receiver is gone; the error is ignored. -/
def put (s : State τ ε) (r : Except ε τ) : State τ ε :=
  { s with value := if s.receiver then some r else none, sender := false }

/-- One step. `get` completes when there is a value or the sender is gone
(`/repo/rsomeip/src/support/sync.rs:65-67`); until then it waits. -/
def step (s : State τ ε) : Action τ ε → Option (State τ ε × Obs τ ε)
  | .send r => if s.sender then some (put s r, .none) else none
  | .ok v => if s.sender then some (put s (.ok v), .none) else none
  | .err e => if s.sender then some (put s (.error e), .none) else none
  | .dropSender => if s.sender then some ({ s with sender := false }, .none) else none
  | .get =>
    if s.receiver then
      match s.value, s.sender with
      | some r, _ => some ({ s with value := none, receiver := false }, .got (some r))
      | none, false => some ({ s with receiver := false }, .got none)
      | none, true => none
    else none
  | .dropReceiver => if s.receiver then some ({ s with value := none, receiver := false }, .none) else none

end Rsomeip.Rt.Response
