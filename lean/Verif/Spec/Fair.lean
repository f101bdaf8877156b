import Verif.Spec.Endpoint

/-! # Runs without end

A run is what an endpoint does over all time: a sequence of steps that goes on for ever. At some
points nothing may happen; from some point on nothing happens if everything has come to rest. -/

namespace Rsomeip.Spec.Ep

open Rsomeip.Rt Rsomeip.Rt.Ep

/-- What happens at one point of time. -/
def Next (dg : Bool) (s : State) (x : Option (Action × Obs)) (s' : State) : Prop :=
  match x with
  | none => s' = s
  | some x => step dg s x.1 = some (s', x.2)

/-- A run of an endpoint. -/
structure Run (dg : Bool) where
  state : Nat → State
  act : Nat → Option (Action × Obs)
  start : state 0 = init
  next : ∀ n, Next dg (state n) (act n) (state (n + 1))

/-- What has happened before time `n`. -/
def Run.hist {dg : Bool} (r : Run dg) (n : Nat) : Trace := (List.range n).filterMap r.act

/-- One of some actions is possible. -/
def Enabled (dg : Bool) (s : State) (P : Action → Prop) : Prop :=
  ∃ a o s', P a ∧ step dg s a = some (s', o)

/-- One of some actions happens at time `n`. -/
def Run.Does {dg : Bool} (r : Run dg) (n : Nat) (P : Action → Prop) : Prop :=
  ∃ a o, r.act n = some (a, o) ∧ P a

/-- Whoever makes these steps is not passed over: if they are possible again and again, then they are
made again and again. -/
def Run.FairTo {dg : Bool} (r : Run dg) (P : Action → Prop) : Prop :=
  (∀ N, ∃ n, N ≤ n ∧ Enabled dg (r.state n) P) → ∀ N, ∃ n, N ≤ n ∧ r.Does n P

/-- The steps of the endpoint task. -/
def EpStep (a : Action) : Prop := ∃ ok, a = .ep ok

/-- The steps of the sending task of connection `c`, with the socket's answers. -/
def SendStep (c : Nat) (a : Action) : Prop := a = .connCmd c ∨ ∃ ok, a = .sent c ok

/-- No task and no call of `send_to` is passed over. -/
structure Run.Fair {dg : Bool} (r : Run dg) : Prop where
  ep : r.FairTo EpStep
  lis : ∀ l, r.FairTo (· = .lisCmd l)
  route : ∀ c, r.FairTo (· = .route c)
  send : ∀ c, r.FairTo (SendStep c)
  call : ∀ k, r.FairTo (· = .stubStep k)

/-- The endpoint task waits for the socket to open a connection or to listen: what it does next depends on the
socket's answer. -/
def Awaits (dg : Bool) (s : State) : Prop := step dg s (.ep true) ≠ step dg s (.ep false)

/-- No task and no call of `send_to` is passed over, but the socket may leave the endpoint task without an answer
for as long as it likes. -/
structure Run.FairTasks {dg : Bool} (r : Run dg) : Prop where
  ep : (∀ N, ∃ n, N ≤ n ∧ Enabled dg (r.state n) EpStep ∧ ¬ Awaits dg (r.state n)) →
    ∀ N, ∃ n, N ≤ n ∧ r.Does n EpStep
  lis : ∀ l, r.FairTo (· = .lisCmd l)
  route : ∀ c, r.FairTo (· = .route c)
  send : ∀ c, r.FairTo (SendStep c)
  call : ∀ k, r.FairTo (· = .stubStep k)

/-- No handle has a full queue for ever: its user reads from it again and again, or drops it. -/
structure Run.Read {dg : Bool} (r : Run dg) : Prop where
  stubs : ∀ k N, ∃ n, N ≤ n ∧ (((r.state n).stubs k).alive = true →
    ((r.state n).ifaces ((r.state n).stubs k).iface).queue.length < 16)
  proxies : ∀ p N, ∃ n, N ≤ n ∧ (((r.state n).proxies p).alive = true →
    ((r.state n).ifaces ((r.state n).proxies p).iface).queue.length < 16)

/-- From some point on the tables of the endpoint keep their buckets. -/
def Run.Settles {dg : Bool} (r : Run dg) : Prop :=
  ∃ N, ∀ n, N ≤ n → ¬ r.Does n fun a => (∃ i j, a = .hashId i j) ∨ ∃ b c, a = .hashAddr b c

end Rsomeip.Spec.Ep
