import Verif.Lemmas.EpAsk
import Verif.Lemmas.EpConn
import Verif.Lemmas.EpMove
import Verif.Props.Rt.Endpoint

/-! # C72 and C76: requests to an endpoint are answered -/

namespace Rsomeip

open Rt Rt.Ep Spec Spec.Ep Someip

/-! ### C72 -/

/-- **C72.** The calls of `serve` and `proxy` return in the order they were made, each at most once,
and nothing returns that was not called. -/
theorem C72_order {dg : Bool} {tr : Trace} {s : State} (e : Exec (step dg) init tr s) :
    answered tr <+: requests tr := by
  rw [← asked e, List.append_assoc]
  exact List.prefix_append ..

/-- Steps of the endpoint task. -/
def Spec.Ep.ownSteps (tr : Trace) : Nat := tr.countP fun e => match e.1 with
  | .ep _ => true
  | _ => false

/-- The steps a request needs at most until it is answered. -/
def Rt.Ep.EpPc.left : EpPc → Nat
  | .idle => 0
  | .stopped => 0
  | .serveCheck _ => 4
  | .serveListen _ => 3
  | .serveShare _ _ => 2
  | .serveTake _ _ _ => 1
  | .proxyCheck _ _ => 5
  | .proxyGet _ _ => 4
  | .proxyConnect _ _ => 3
  | .proxyShare _ _ _ => 2
  | .proxyTake _ _ _ _ => 1
  | .connect _ _ _ => 1

theorem Rt.Ep.EpPc.left_le (p : EpPc) : p.left ≤ 5 := by
  cases p <;> simp [EpPc.left]

theorem Rt.Ep.EpPc.left_zero {p : EpPc} (h : p.left = 0) : p = .idle ∨ p = .stopped := by
  cases p <;> simp [EpPc.left] at h ⊢

theorem Rt.Ep.EpPc.current_left {p : EpPc} (h : p.left = 0) : p.current = [] := by
  rcases EpPc.left_zero h with rfl | rfl <;> rfl

theorem ownSteps_append (t u : Trace) : ownSteps (t ++ u) = ownSteps t + ownSteps u :=
  List.countP_append ..

/-- The endpoint task works off its queue. -/
theorem works {dg : Bool} {s s' : State} {a : Action} {o : Obs} (m : Move dg s a o s')
    {old new : List EpCmd} (hq : s.cmds = old ++ new) :
    (old = [] ∧ s.pc.left = 0) ∨
    ∃ old' new', s'.cmds = old' ++ new' ∧
      waiting new' = waiting new ++ requests [(a, o)] ∧
      6 * old'.length + s'.pc.left + ownSteps [(a, o)] ≤ 6 * old.length + s.pc.left := by
  cases m
  case serve id _ _ =>
    exact .inr ⟨old, new ++ [.serve id], by simp [hq], by simp [waiting_append]; rfl, by simp [ownSteps]⟩
  case proxy id b _ _ =>
    exact .inr ⟨old, new ++ [.proxy id b], by simp [hq], by simp [waiting_append]; rfl, by simp [ownSteps]⟩
  case ask k b m _ _ =>
    exact .inr ⟨old, new ++ [.connect k b s.asks], by simp [hq], by simp [waiting_append]; rfl, by simp [ownSteps]⟩
  case epStop => exact .inl ⟨by simp_all, by simp_all [EpPc.left]⟩
  case epServe ok id q hpc hq' =>
    cases old with
    | nil => exact .inl ⟨rfl, by rw [hpc]; rfl⟩
    | cons x old =>
      rw [hq'] at hq
      obtain ⟨rfl, rfl⟩ := List.cons.inj hq
      exact .inr ⟨old, new, rfl, by simp [requests], by simp [hpc, EpPc.left, ownSteps]; omega⟩
  case epProxy ok id b q hpc hq' =>
    cases old with
    | nil => exact .inl ⟨rfl, by rw [hpc]; rfl⟩
    | cons x old =>
      rw [hq'] at hq
      obtain ⟨rfl, rfl⟩ := List.cons.inj hq
      exact .inr ⟨old, new, rfl, by simp [requests], by simp [hpc, EpPc.left, ownSteps]; omega⟩
  case epConnect ok k b t q hpc hq' =>
    cases old with
    | nil => exact .inl ⟨rfl, by rw [hpc]; rfl⟩
    | cons x old =>
      rw [hq'] at hq
      obtain ⟨rfl, rfl⟩ := List.cons.inj hq
      exact .inr ⟨old, new, rfl, by simp [requests], by simp [hpc, EpPc.left, ownSteps]; omega⟩
  all_goals
    refine .inr ⟨old, new, hq, by simp [requests], ?_⟩
    simp_all [EpPc.left, ownSteps]

/-- **C72.** Six steps of the endpoint task answer a request: all calls made so far have returned
when the task has made six steps for every command in its queue and six for the one it is dealing
with, whatever else happens in between. -/
theorem C72_bounded {dg : Bool} {tr t : Trace} {s s' : State} (e : Exec (step dg) init tr s)
    (e' : Exec (step dg) s t s') (h : 6 * (s.cmds.length + 1) ≤ ownSteps t) :
    requests tr <+: answered (tr ++ t) := by
  suffices key : requests tr <+: answered (tr ++ t) ∨
      ∃ old new, s'.cmds = old ++ new ∧ waiting new = requests t ∧
        ownSteps t + 6 * old.length + s'.pc.left ≤ 6 * s.cmds.length + s.pc.left by
    rcases key with h1 | ⟨old, new, h1, h2, h3⟩
    · exact h1
    · have := s.pc.left_le
      omega
  clear h
  induction e' with
  | nil => exact .inr ⟨s.cmds, [], by simp, rfl, by simp [ownSteps]⟩
  | @snoc t s₁ s₂ a o e₁ hs ih =>
    rcases ih with h1 | ⟨old, new, h1, h2, h3⟩
    · refine .inl (h1.trans ?_)
      rw [← List.append_assoc, answered_snoc]
      exact List.prefix_append ..
    · rcases works (move_of_step hs) h1 with ⟨rfl, h4⟩ | ⟨old', new', h4, h5, h6⟩
      · left
        have := asked (e.append e₁)
        rw [EpPc.current_left h4, h1, List.nil_append, h2, List.append_nil,
          show requests (tr ++ t) = requests tr ++ requests t from List.filterMap_append ..] at this
        have := List.append_cancel_right this
        rw [← List.append_assoc, answered_snoc, this]
        exact List.prefix_append ..
      · refine .inr ⟨old', new', h4, by
          rw [h5, h2, requests, requests, requests, List.filterMap_append], ?_⟩
        rw [ownSteps_append]
        omega

/-- The endpoint task needs the entry of interface `id`: it is looking whether there is such an
interface, or creates it. -/
inductive Spec.Ep.Looks (id : InterfaceId) : EpPc → Prop where
  | serveCheck : Looks id (.serveCheck id)
  | serveShare (l) : Looks id (.serveShare id l)
  | proxyCheck (a) : Looks id (.proxyCheck id a)
  | proxyShare (a c) : Looks id (.proxyShare id a c)

/-- What the endpoint task is waiting for, if it cannot go on. -/
inductive Spec.Ep.Waits (s : State) : Prop where
  /-- It has ended. -/
  | stopped : s.pc = .stopped → Waits s
  /-- There is nothing to do. -/
  | idle : s.pc = .idle → s.cmds = [] → s.epStrong = true → Waits s
  /-- It needs the entry of an interface, and some connection is waiting for room in the
  queue of a stub or proxy for the same interface, or for one with the same lock. -/
  | receiver (id c i m ms) : Looks id s.pc →
      (s.conns c).pc = .sending i m ms → s.ifBucket (InterfaceId.of m) = s.ifBucket id → Waits s
  /-- It is making a proxy, and some stub is waiting for room in the queue of a connection to the
  same address, or to one with the same lock. -/
  | sender (id a k b m c) : s.pc = .proxyGet id a → (s.stubs k).pc = .sending b m c →
      s.peerBucket b = s.peerBucket a → Waits s
  /-- The listener has not taken its commands. -/
  | listener (id l i) : s.pc = .serveTake id l i → (s.liss l).alive = true →
      lisCap ≤ (s.liss l).cmds.length → Waits s
  /-- The connection has not taken its commands. -/
  | connection (id a c i) : s.pc = .proxyTake id a c i → (s.conns c).alive = true →
      connCap ≤ (s.conns c).cmds.length → Waits s

theorem ifLocked_true {s : State} {id : InterfaceId} (h : s.ifLocked id = true) :
    ∃ c i m ms, (s.conns c).pc = .sending i m ms ∧
      s.ifBucket (InterfaceId.of m) = s.ifBucket id := by
  simp only [State.ifLocked, List.any_eq_true] at h
  obtain ⟨c, _, h⟩ := h
  cases hp : (s.conns c).pc with
  | sending i m ms =>
    rw [hp] at h
    exact ⟨c, i, m, ms, hp, of_decide_eq_true h⟩
  | _ => rw [hp] at h; cases h

theorem locked_of_sending {s : State} (hf : Fresh s) {c i : Nat} {m : Msg} {ms : List Msg}
    {id : InterfaceId} (h : (s.conns c).pc = .sending i m ms)
    (hb : s.ifBucket (InterfaceId.of m) = s.ifBucket id) : s.ifLocked id = true := by
  simp only [State.ifLocked, List.any_eq_true, List.mem_range]
  refine ⟨c, ?_, by rw [h]; exact decide_eq_true hb⟩
  apply Decidable.byContradiction
  intro hn
  rw [hf.conns c (Nat.not_lt.mp hn)] at h
  cases h

/-- **C72.** The endpoint task goes on unless it has a reason to wait: these are all. -/
theorem C72_goes_on {dg : Bool} {tr : Trace} {s : State} (e : Exec (step dg) init tr s) (ok : Bool)
    (h : ¬ Waits s) : ∃ s' o, step dg s (.ep ok) = some (s', o) := by
  have hf := (good_hist e).1.fresh
  cases hp : s.pc with
  | stopped => exact absurd (.stopped hp) h
  | idle =>
    cases hq : s.cmds with
    | nil =>
      cases hs : s.epStrong with
      | true => exact absurd (.idle hp hq hs) h
      | false => exact ⟨_, _, step_of_move (.epStop ok hp hq hs)⟩
    | cons x q =>
      cases x with
      | serve => exact ⟨_, _, step_of_move (.epServe ok _ q hp hq)⟩
      | proxy => exact ⟨_, _, step_of_move (.epProxy ok _ _ q hp hq)⟩
      | connect => exact ⟨_, _, step_of_move (.epConnect ok _ _ _ q hp hq)⟩
  | serveCheck id =>
    cases hl : s.ifLocked id with
    | true =>
      obtain ⟨c, i, m, ms, h1, h2⟩ := ifLocked_true hl
      exact absurd (.receiver id c i m ms (by rw [hp]; constructor) h1 h2) h
    | false =>
      cases hk : s.known id with
      | true => exact ⟨_, _, step_of_move (.serveExists ok id hp hl hk)⟩
      | false => exact ⟨_, _, step_of_move (.serveGo ok id hp hl hk)⟩
  | serveListen id =>
    by_cases hl : ∃ l, s.listener = some l ∧ s.lisStrong l = true
    · obtain ⟨l, hl, hs⟩ := hl
      exact ⟨_, _, step_of_move (.serveOld ok id l hp hl hs)⟩
    · have hl : ∀ l, s.listener = some l → s.lisStrong l = false := fun l h1 => by
        cases h2 : s.lisStrong l with
        | false => rfl
        | true => exact absurd ⟨l, h1, h2⟩ hl
      cases ok with
      | true => exact ⟨_, _, step_of_move (.serveNew id hp hl)⟩
      | false => exact ⟨_, _, step_of_move (.serveNoListen id hp hl)⟩
  | serveShare id l =>
    cases hl : s.ifLocked id with
    | true =>
      obtain ⟨c, i, m, ms, h1, h2⟩ := ifLocked_true hl
      exact absurd (.receiver id c i m ms (by rw [hp]; constructor) h1 h2) h
    | false => exact ⟨_, _, step_of_move (.serveShare ok id l hp hl)⟩
  | serveTake id l i =>
    cases ha : (s.liss l).alive with
    | false => exact ⟨_, _, step_of_move (.serveClosed ok id l i hp ha)⟩
    | true =>
      by_cases hq : (s.liss l).cmds.length < lisCap
      · exact ⟨_, _, step_of_move (.serveTake ok id l i hp ha hq)⟩
      · exact absurd (.listener id l i hp ha (Nat.not_lt.mp hq)) h
  | proxyCheck id a =>
    cases hl : s.ifLocked id with
    | true =>
      obtain ⟨c, i, m, ms, h1, h2⟩ := ifLocked_true hl
      exact absurd (.receiver id c i m ms (by rw [hp]; constructor) h1 h2) h
    | false =>
      cases hk : s.known id with
      | true => exact ⟨_, _, step_of_move (.proxyExists ok id a hp hl hk)⟩
      | false => exact ⟨_, _, step_of_move (.proxyGo ok id a hp hl hk)⟩
  | proxyGet id a =>
    cases hl : s.peerLocked a with
    | true =>
      obtain ⟨k, b, m, c, hk, hb⟩ := (peerLocked_iff hf a).mp hl
      exact absurd (.sender id a k b m c hp hk hb) h
    | false =>
      by_cases hc : ∃ c, s.peers.get a = some c ∧ s.connStrong c = true
      · obtain ⟨c, hc, hs⟩ := hc
        exact ⟨_, _, step_of_move (.proxyFound ok id a c hp hl hc hs)⟩
      · have hc : ∀ c, s.peers.get a = some c → s.connStrong c = false := fun c h1 => by
          cases h2 : s.connStrong c with
          | false => rfl
          | true => exact absurd ⟨c, h1, h2⟩ hc
        exact ⟨_, _, step_of_move (.proxyMissing ok id a hp hl hc)⟩
  | proxyConnect id a =>
    cases ok with
    | true => exact ⟨_, _, step_of_move (.proxyConnect id a hp)⟩
    | false => exact ⟨_, _, step_of_move (.proxyNoConnect id a hp)⟩
  | proxyShare id a c =>
    cases hl : s.ifLocked id with
    | true =>
      obtain ⟨c', i, m, ms, h1, h2⟩ := ifLocked_true hl
      exact absurd (.receiver id c' i m ms (by rw [hp]; constructor) h1 h2) h
    | false => exact ⟨_, _, step_of_move (.proxyShare ok id a c hp hl)⟩
  | proxyTake id a c i =>
    cases ha : (s.conns c).alive with
    | false => exact ⟨_, _, step_of_move (.proxyClosed ok id a c i hp ha)⟩
    | true =>
      by_cases hq : (s.conns c).cmds.length < connCap
      · exact ⟨_, _, step_of_move (.proxyTake ok id a c i hp ha hq)⟩
      · exact absurd (.connection id a c i hp ha (Nat.not_lt.mp hq)) h
  | connect k a t =>
    cases dg with
    | false =>
      by_cases hk : ∃ b m, (s.stubs k).pc = .asked b m t
      · exact ⟨_, _, step_of_move (.connectRefused ok k a t hp rfl hk)⟩
      · exact ⟨_, _, step_of_move (.connectStale ok k a t hp nofun hk)⟩
    | true =>
      cases ok with
      | true => exact ⟨_, _, step_of_move (.connectOk k a t hp rfl)⟩
      | false =>
        by_cases hk : ∃ b m, (s.stubs k).pc = .asked b m t
        · exact ⟨_, _, step_of_move (.connectFail k a t hp rfl hk)⟩
        · exact ⟨_, _, step_of_move (.connectStale false k a t hp (fun _ => rfl) hk)⟩

/-- **C72.** Each of these reasons does make the endpoint task wait, whatever the connector would
answer. -/
theorem C72_waits {dg : Bool} {tr : Trace} {s : State} (e : Exec (step dg) init tr s) (ok : Bool)
    (h : Waits s) : step dg s (.ep ok) = none := by
  have hf := (good_hist e).1.fresh
  cases h with
  | stopped hp => simp [step, ep, hp]
  | idle hp hq hs => simp [step, ep, epCmd, hp, hq, hs]
  | receiver id c i m ms h1 h2 h3 =>
    have hl := locked_of_sending hf h2 h3
    generalize hp : s.pc = pc at h1
    cases h1 <;> simp [step, ep, create, hp, hl]
  | sender id a k b m c h1 h2 h3 =>
    have hl := (peerLocked_iff hf a).mpr ⟨k, b, m, c, h2, h3⟩
    simp [step, ep, h1, hl]
  | listener id l i hp ha hq => simp [step, ep, hp, ha, hq]
  | connection id a c i hp ha hq => simp [step, ep, hp, ha, hq]

/-- A state in which the endpoint waits for nothing: it has just been asked to serve. -/
example : ∃ tr s, Exec (step true) init tr s ∧ ¬ Waits s ∧ s.pc = .serveCheck ⟨1, 1⟩ := by
  obtain ⟨tr, s, e, h⟩ := exec_reaches (step := step true) (s := init) [.serve ⟨1, 1⟩, .ep true]
    (fun s => decide (s.pc = .serveCheck ⟨1, 1⟩ ∧ s.connCount = 0)) (by decide +kernel)
  have h := of_decide_eq_true h
  refine ⟨tr, s, e, ?_, h.1⟩
  have hf := (good_hist e).1.fresh
  intro hw
  cases hw with
  | receiver id c i m ms _ hc =>
    rw [hf.conns c (by rw [h.2]; exact Nat.zero_le c)] at hc
    cases hc
  | _ => simp_all

/-- Requests that are answered in order, after the steps allowed. -/
example : requests sampleTrace = [.serve ⟨1, 1⟩, .proxy ⟨2, 1⟩ 7] ∧
    answered sampleTrace = [.serve ⟨1, 1⟩, .proxy ⟨2, 1⟩ 7] ∧ ownSteps sampleTrace ≤ 12 := by
  decide +kernel

/-! ### C76 -/

/-- Stub `k` is not read from and stays, and connection `c` stays. -/
def Spec.Ep.Neglects (k c : Nat) (t : Trace) : Prop :=
  ∀ x ∈ t, x.1 ≠ .stubRecv k ∧ x.1 ≠ .dropStub k ∧ x ≠ (.connCmd c, .ended) ∧ x.1 ≠ .sent c false

/-- The endpoint waits for connection `c`, which waits for stub `k`. -/
structure Spec.Ep.Stuck (id : InterfaceId) (k c : Nat) (m : Msg) (ms : List Msg) (s : State) : Prop where
  /-- The endpoint has been asked for interface `id`. -/
  pc : s.pc = .serveCheck id ∨ ∃ a, s.pc = .proxyCheck id a
  alive : (s.stubs k).alive = true
  full : ifCap ≤ (s.ifaces (s.stubs k).iface).queue.length
  /-- The connection has a message to be put into the stub's queue. -/
  conn : (s.conns c).pc = .sending (s.stubs k).iface m ms
  /-- The message is for interface `id`, or for one with the same lock. -/
  msg : s.ifBucket (InterfaceId.of m) = s.ifBucket id

/-- Interface `id` keeps its lock, or has it because it is interface `id'`. -/
theorem bucket_step {dg : Bool} {s s' : State} {a : Action} {o : Obs} (hm : Move dg s a o s')
    {id id' : InterfaceId} (h : s.ifBucket id' = s.ifBucket id)
    (hb : id' = id ∨ ∀ x y, a ≠ .hashId x y) : s'.ifBucket id' = s'.ifBucket id := by
  rcases hb with rfl | hb
  · rfl
  · cases hm <;> first | exact h | exact absurd rfl (hb _ _)

theorem Spec.Ep.Stuck.pc_step {dg : Bool} {s s' : State} {id : InterfaceId} {k c : Nat} {m : Msg}
    {ms : List Msg} {a : Action} {o : Obs} (h : Stuck id k c m ms s) (hf : Fresh s)
    (hm : Move dg s a o s') : s'.pc = s.pc ∧ ∀ ok, a ≠ .ep ok := by
  have h1 := h.pc
  have h2 := locked_of_sending hf h.conn h.msg
  clear h
  cases hm <;> first | exact ⟨rfl, nofun⟩ | (rcases h1 with h1 | ⟨b, h1⟩ <;> simp_all)

theorem Spec.Ep.Stuck.stub_step {dg : Bool} {s s' : State} {id : InterfaceId} {k c : Nat} {m : Msg}
    {ms : List Msg} {a : Action} {o : Obs} (h : Stuck id k c m ms s) (hf : Fresh s)
    (hm : Move dg s a o s') (ha : a ≠ .dropStub k) :
    (s'.stubs k).alive = true ∧ (s'.stubs k).iface = (s.stubs k).iface := by
  have h1 := h.alive
  have h2 := stub_lt hf h1
  have h3 := answer_cases s
  have h4 := refuse_cases s
  clear h hf
  cases hm <;> first | exact ⟨h1, rfl⟩ | grind [upd, stubAt_apply]

theorem Spec.Ep.Stuck.queue_step {dg : Bool} {s s' : State} {id : InterfaceId} {k c : Nat} {m : Msg}
    {ms : List Msg} {a : Action} {o : Obs} (h : Stuck id k c m ms s) (hg : Good s)
    (hm : Move dg s a o s') (ha : a ≠ .dropStub k) (hr : a ≠ .stubRecv k) :
    ifCap ≤ (s'.ifaces (s.stubs k).iface).queue.length := by
  have h1 := h.full
  have h2 := (h.pc_step hg.fresh hm).2
  have h3 := hg.readers.one
  have h4 : Reads s (.stub k) (s.stubs k).iface := ⟨h.alive, rfl⟩
  have h5 : ∀ j, (s.stubs j).alive = true → (s.stubs j).iface = (s.stubs k).iface → j = k :=
    fun j h6 h7 => Reader.stub.inj (h3 _ _ _ ⟨h6, h7⟩ h4)
  have h6 : ∀ p, (s.proxies p).alive = true → (s.proxies p).iface ≠ (s.stubs k).iface :=
    fun p h6 h7 => by cases h3 (.proxy p) _ _ ⟨h6, h7⟩ h4
  clear h3 h4 h hg
  cases hm <;> first | exact h1 | exact absurd rfl (h2 _) | grind [upd, Iface.drop]

theorem Spec.Ep.Stuck.conn_step {dg : Bool} {s s' : State} {id : InterfaceId} {k c : Nat} {m : Msg}
    {ms : List Msg} {a : Action} {o : Obs} (h : Stuck id k c m ms s) (hg : Good s)
    (hm : Move dg s a o s') (hc : (a, o) ≠ (.connCmd c, .ended)) (hs : a ≠ .sent c false) :
    (s'.conns c).pc = .sending (s.stubs k).iface m ms := by
  have h1 := h.full
  have h2 := (h.pc_step hg.fresh hm).2
  have h3 := h.conn
  have h4 := (hg.readers.rx (.stub k) _ ⟨h.alive, rfl⟩).2
  have h5 : c ≠ s.connCount := by
    rintro rfl
    rw [hg.fresh.conns _ (Nat.le_refl _)] at h3
    cases h3
  clear h hg
  cases hm <;> first | exact h3 | exact absurd rfl (h2 _) | grind [upd]

/-- **C76** is false: when the queue of a stub is full, a message for it has arrived and the
endpoint is asked for the same interface, or for one that shares its lock, then the endpoint does
nothing any more for anybody until the stub is read from or dropped, or the connection ends. -/
theorem C76_hangs {dg : Bool} {tr t : Trace} {s s' : State} {id : InterfaceId} {k c : Nat} {m : Msg}
    {ms : List Msg} (e : Exec (step dg) init tr s) (h : Stuck id k c m ms s)
    (e' : Exec (step dg) s t s') (hn : Neglects k c t)
    (hb : InterfaceId.of m = id ∨ ∀ e ∈ t, ∀ x y, e.1 ≠ .hashId x y) :
    ownSteps t = 0 ∧ answered (tr ++ t) = answered tr ∧ Stuck id k c m ms s' := by
  induction e' with
  | nil => exact ⟨rfl, by rw [List.append_nil], h⟩
  | @snoc t s₁ s₂ a o e₁ hs ih =>
    obtain ⟨h1, h2, h3⟩ := ih (fun x hx => hn x (List.mem_append_left _ hx))
      (hb.imp_right fun h x hx => h x (List.mem_append_left _ hx))
    have hb := hb.imp_right fun h => h (a, o) (List.mem_append_right _ (List.mem_singleton.mpr rfl))
    obtain ⟨hn1, hn2, hn3, hn4⟩ := hn (a, o) (List.mem_append_right _ (List.mem_singleton.mpr rfl))
    have hg := (good_hist (e.append e₁)).1
    have hm := move_of_step hs
    obtain ⟨h4, h5⟩ := h3.pc_step hg.fresh hm
    obtain ⟨h6, h7⟩ := h3.stub_step hg.fresh hm hn2
    refine ⟨?_, ?_, ?_⟩
    · rw [ownSteps_append, h1]
      cases a <;> first | rfl | exact absurd rfl (h5 _)
    · rw [← List.append_assoc, answered_snoc, h2]
      cases hm
      case proxyRecv p x b q _ _ _ => by_cases hb : (s₁.proxies p).remote = b <;> simp [hb]
      all_goals first | exact List.append_nil _ | exact absurd rfl (h5 _)
    · refine ⟨by rw [h4]; exact h3.pc, h6, ?_, ?_, bucket_step hm h3.msg hb⟩
      · rw [h7]; exact h3.queue_step hg hm hn2 hn1
      · rw [h7]; exact h3.conn_step hg hm hn3 hn4

/-- Seventeen messages in one datagram. -/
def Spec.Ep.stuckActions : List Action :=
  [.serve ⟨1, 1⟩, .ep true, .ep true, .ep true, .ep true, .ep true, .lisCmd 0, .accept 0 8, .lisShare 0,
    .packet 0 (.packet (List.replicate 17 (frame msgA)).flatten)] ++ List.replicate 33 (.route 0) ++
    [.serve ⟨1, 1⟩, .serve ⟨2, 1⟩, .ep true]

example : ∃ tr s, Exec (step true) init tr s ∧ Stuck ⟨1, 1⟩ 0 0 msgA [] s := by
  obtain ⟨tr, s, e, h⟩ := exec_reaches (step := step true) (s := init) stuckActions
    (fun s => decide (s.pc = .serveCheck ⟨1, 1⟩ ∧ (s.stubs 0).alive = true ∧
      ifCap ≤ (s.ifaces (s.stubs 0).iface).queue.length ∧
      (s.conns 0).pc = .sending (s.stubs 0).iface msgA [])) (by decide +kernel)
  obtain ⟨h1, h2, h3, h4⟩ := of_decide_eq_true h
  exact ⟨tr, s, e, .inl h1, h2, h3, h4, by rw [show InterfaceId.of msgA = ⟨1, 1⟩ by decide]⟩

/-- A stub for one interface is not read from, and the endpoint waits for it to serve another. -/
example : ∃ tr s, Exec (step true) init tr s ∧ Stuck ⟨2, 1⟩ 0 0 msgA [] s := by
  obtain ⟨tr, s, e, h⟩ := exec_reaches (step := step true) (s := init)
    (.hashId ⟨2, 1⟩ ⟨1, 1⟩ :: stuckActions.take 43 ++ [.serve ⟨2, 1⟩, .ep true])
    (fun s => decide (s.pc = .serveCheck ⟨2, 1⟩ ∧ (s.stubs 0).alive = true ∧
      ifCap ≤ (s.ifaces (s.stubs 0).iface).queue.length ∧
      (s.conns 0).pc = .sending (s.stubs 0).iface msgA [] ∧
      s.ifBucket (InterfaceId.of msgA) = s.ifBucket ⟨2, 1⟩)) (by decide +kernel)
  obtain ⟨h1, h2, h3, h4, h5⟩ := of_decide_eq_true h
  exact ⟨tr, s, e, .inl h1, h2, h3, h4, h5⟩

/-- **C76.** A stub or proxy that is not read from does not block requests for interfaces with
another lock. (Missing: requests for the same interface and for those that share its lock, behind
which all others have to wait, see `C76_hangs`.) -/
theorem C76_requests_partial {dg : Bool} {tr : Trace} {s : State} (e : Exec (step dg) init tr s)
    {id : InterfaceId} (ok : Bool)
    (hp : Looks id s.pc)
    (hc : ∀ c i m ms, (s.conns c).pc = .sending i m ms →
      s.ifBucket (InterfaceId.of m) ≠ s.ifBucket id) :
    ∃ s' o, step dg s (.ep ok) = some (s', o) := by
  refine C72_goes_on e ok fun h => ?_
  generalize hx : s.pc = pc at hp
  cases h with
  | receiver id' c i m ms h1 h2 h3 =>
    rw [hx] at h1
    have : id' = id := by cases hp <;> cases h1 <;> rfl
    exact hc c i m ms h2 (this ▸ h3)
  | _ => cases hp <;> simp_all

/-- While stub 0 is not read from, the endpoint is asked to serve an interface with another lock. -/
example : ∃ tr s, Exec (step true) init tr s ∧ (s.conns 0).pc = .sending 0 msgA [] ∧
    Looks ⟨2, 1⟩ s.pc ∧ ∀ c i m ms, (s.conns c).pc = .sending i m ms →
      s.ifBucket (InterfaceId.of m) ≠ s.ifBucket ⟨2, 1⟩ := by
  obtain ⟨tr, s, e, h⟩ := exec_reaches (step := step true) (s := init)
    (stuckActions.take 43 ++ [.serve ⟨2, 1⟩, .ep true])
    (fun s => decide (s.pc = .serveCheck ⟨2, 1⟩ ∧ (s.conns 0).pc = .sending 0 msgA [] ∧
      s.ifLocked ⟨2, 1⟩ = false)) (by decide +kernel)
  obtain ⟨h1, h2, h3⟩ := of_decide_eq_true h
  refine ⟨tr, s, e, h2, by rw [h1]; constructor, fun c i m ms h4 h5 => ?_⟩
  rw [locked_of_sending (good_hist e).1.fresh h4 h5] at h3
  cases h3

/-- **C76.** A stub or proxy that is not read from does not block messages for interfaces with
another lock, from other connections. (Missing: messages for interfaces that share its lock, see
`C76_neighbours`.) -/
theorem C76_messages_partial {dg : Bool} {s : State}
    {d i : Nat} {m : Msg} {ms : List Msg} (hd : (s.conns d).pc = .route (m :: ms))
    (hc : ∀ c j m' ms', (s.conns c).pc = .sending j m' ms' →
      s.ifBucket (InterfaceId.of m') ≠ s.ifBucket (InterfaceId.of m))
    (hi : s.shared.get (InterfaceId.of m) = some i) (hs : s.ifStrong i = true)
    (hr : (s.ifaces i).rx = true) (hq : (s.ifaces i).queue.length < ifCap) :
    ∃ s', Exec (step dg) s [(.route d, .none), (.route d, .routed i m (s.conns d).addr)] s' := by
  have hl : s.ifLocked (InterfaceId.of m) = false := by
    cases h : s.ifLocked (InterfaceId.of m) with
    | false => rfl
    | true =>
      obtain ⟨c, j, m', ms', h1, h2⟩ := ifLocked_true h
      exact absurd h2 (hc c j m' ms' h1)
  let s1 : State := { s with conns := upd s.conns d { s.conns d with pc := .sending i m ms } }
  have m2 : Move dg s1 (.route d) (.routed i m (s1.conns d).addr) _ := .put d i m ms
    (show Conn.pc (upd _ _ _ _) = _ by rw [upd_same]) hr hq
  have h2 : (s1.conns d).addr = (s.conns d).addr := by
    show Conn.addr (upd _ _ _ _) = _
    rw [upd_same]
  rw [← h2]
  exact ⟨_, .cons (step_of_move (.routeTo d m ms i hd hl hi hs)) <| .cons (step_of_move m2) .nil⟩

/-- **C76** is false for messages too: while a stub's queue is full and a connection has a message
for it, no other connection delivers anything to an interface that shares the lock. -/
theorem C76_neighbours {dg : Bool} {tr : Trace} {s : State} (e : Exec (step dg) init tr s)
    {c d i : Nat} {m m' : Msg} {ms ms' : List Msg} (hc : (s.conns c).pc = .sending i m ms)
    (hd : (s.conns d).pc = .route (m' :: ms'))
    (hb : s.ifBucket (InterfaceId.of m) = s.ifBucket (InterfaceId.of m')) :
    step dg s (.route d) = none := by
  have h := locked_of_sending (good_hist e).1.fresh hc hb
  simp [step, route, hd, h]

/-- Stub 0 is not read from; a message for stub 1 waits at another connection, though stub 1 has
nothing in its queue. -/
example : ∃ tr s, Exec (step true) init tr s ∧ (s.conns 0).pc = .sending 0 msgA [] ∧
    (s.conns 1).pc = .route [msgB] ∧ (s.ifaces 1).queue = [] ∧
    s.ifBucket (InterfaceId.of msgA) = s.ifBucket (InterfaceId.of msgB) := by
  obtain ⟨tr, s, e, h⟩ := exec_reaches (step := step true) (s := init)
    ([.hashId ⟨2, 1⟩ ⟨1, 1⟩, .serve ⟨1, 1⟩, .ep true, .ep true, .ep true, .ep true, .ep true,
      .lisCmd 0, .serve ⟨2, 1⟩, .ep true, .ep true, .ep true, .ep true, .ep true, .lisCmd 0,
      .accept 0 8, .lisShare 0, .accept 0 9, .lisShare 0,
      .packet 0 (.packet (List.replicate 17 (frame msgA)).flatten)] ++ List.replicate 33 (.route 0) ++
      [.packet 1 (.packet (frame msgB))])
    (fun s => decide ((s.conns 0).pc = .sending 0 msgA [] ∧
    (s.conns 1).pc = .route [msgB] ∧ (s.ifaces 1).queue = [] ∧
    s.ifBucket (InterfaceId.of msgA) = s.ifBucket (InterfaceId.of msgB)))
    (by decide +kernel)
  exact ⟨tr, s, e, of_decide_eq_true h⟩

/-- While stub 0 is not read from, there is a message for stub 1 at another connection. -/
example : ∃ tr s, Exec (step true) init tr s ∧ (s.conns 0).pc = .sending 0 msgA [] ∧
    (s.conns 1).pc = .route [msgB] ∧ s.shared.get (InterfaceId.of msgB) = some 1 ∧
    s.ifStrong 1 = true ∧ (s.ifaces 1).rx = true ∧ (s.ifaces 1).queue.length < ifCap := by
  obtain ⟨tr, s, e, h⟩ := exec_reaches (step := step true) (s := init)
    ([.serve ⟨1, 1⟩, .ep true, .ep true, .ep true, .ep true, .ep true, .lisCmd 0,
      .serve ⟨2, 1⟩, .ep true, .ep true, .ep true, .ep true, .ep true, .lisCmd 0,
      .accept 0 8, .lisShare 0, .accept 0 9, .lisShare 0,
      .packet 0 (.packet (List.replicate 17 (frame msgA)).flatten)] ++ List.replicate 33 (.route 0) ++
      [.packet 1 (.packet (frame msgB))])
    (fun s => decide ((s.conns 0).pc = .sending 0 msgA [] ∧
    (s.conns 1).pc = .route [msgB] ∧ s.shared.get (InterfaceId.of msgB) = some 1 ∧
    s.ifStrong 1 = true ∧ (s.ifaces 1).rx = true ∧ (s.ifaces 1).queue.length < ifCap))
    (by decide +kernel)
  have h := of_decide_eq_true h
  exact ⟨tr, s, e, h⟩

end Rsomeip
