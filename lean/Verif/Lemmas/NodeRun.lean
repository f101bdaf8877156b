import Verif.Spec.FairNode
import Verif.Lemmas.Endless
import Verif.Lemmas.EpRun
import Verif.Lemmas.NodeIdle

/-! # Runs of an endpoint on a UDP socket -/

namespace Rsomeip.Rt.Node

open Spec Spec.Node

/-- What the endpoint does in a step. -/
def part (x : Action × Obs) : Option (Ep.Action × Ep.Obs) :=
  match x with
  | (.app y, o) => o.ep.map fun w => (y, w)
  | _ => none

theorem app_eq (tr : Trace) : app tr = tr.filterMap part := by
  rw [app]
  congr 1

/-- The endpoint's part of a run. -/
def epRun (r : Run) : Ep.Run true where
  state n := (r.state n).ep
  act n := (r.act n).bind part
  start := by rw [r.start]; rfl
  next n := by
    rcases r.move n with ⟨h1, h2⟩ | ⟨a, o, h1, h2⟩
    · rw [h1, h2]; rfl
    · rw [h1]
      generalize r.state (n + 1) = t at h2
      cases move_of_step h2 with
      | app x e o s' us out he hc =>
        show Ep.step true _ x = some (_, o)
        rw [he, hc.ep]
      | net _ u v w ha hn hd hu =>
        have : part (a, ⟨none, [(u, w)], []⟩) = none := by
          cases a with
          | app x => exact absurd rfl (ha x)
          | _ => rfl
        rw [Option.bind_some, this]
        rfl

theorem epRun_hist (r : Run) (n : Nat) : (epRun r).hist n = app (r.hist n) := by
  rw [app_eq, Ep.Run.hist, Endless.hist, List.filterMap_filterMap]
  rfl

variable {s : State}

/-! ### What the endpoint can do, it can do on a socket -/

theorem can_still {x : Ep.Action} {e : Ep.State} {o : Ep.Obs} (h : Ep.step true s.ep x = some (e, o))
    (hx : appCall s x e o = still s e o) : ∃ s' w, step s (.app x) = some (s', w) := by
  simp [step, h, hx, still]

theorem can_lis (k : Link s) (hg : Ep.Good s.ep) {l : Nat} {e : Ep.State} {o : Ep.Obs}
    (he : Ep.step true s.ep (.lisCmd l) = some (e, o)) : ∃ s' w, step s (.app (.lisCmd l)) = some (s', w) := by
  have ha : (s.ep.liss l).alive = true := by
    cases ha : (s.ep.liss l).alive with
    | true => rfl
    | false => simp [Ep.step, Ep.lisCmd, ha] at he
  have hb := k.backlog l (lis_lt hg ha)
  rw [ha] at hb
  simp only [step, he, appCall]
  split <;> simp [still, call, Udp.step, Udp.dropListener, hb]

theorem can_send (k : Link s) (hg : Ep.Good s.ep) {c : Nat} {x : Ep.Action} {e : Ep.State} {o : Ep.Obs}
    (hx : Ep.SendStep c x) (he : Ep.step true s.ep x = some (e, o)) :
    ∃ y s' w, Node.SendStep c y ∧ step s y = some (s', w) := by
  rcases hx with rfl | ⟨ok, rfl⟩
  · have ha : (s.ep.conns c).alive = true := by
      cases ha : (s.ep.conns c).alive with
      | true => rfl
      | false => simp [Ep.step, Ep.connCmd, ha] at he
    obtain ⟨⟨r, w⟩, hr⟩ := can_release k e o (Ep.alive_lt hg.fresh ha) ha
    exact ⟨_, r, w, .inl rfl, by simp [step, he, appCall, hr]⟩
  · cases ho : (s.ep.conns c).out with
    | none => simp [Ep.step, Ep.sent, ho] at he
    | some b =>
      have ha : (s.ep.conns c).alive = true := by
        cases ha : (s.ep.conns c).alive with
        | true => rfl
        | false => rw [(hg.ended.conns c ha).2.1] at ho; cases ho
      obtain ⟨⟨e1, o1⟩, he1⟩ : ∃ y, Ep.step true s.ep (.sent c false) = some y := by
        simp [Ep.step, Ep.sent, ho]
      obtain ⟨⟨r, a, b, d⟩, hr⟩ := can_release k e1 o1 (Ep.alive_lt hg.fresh ha) ha
      refine ⟨.app (.sent c false), ?_⟩
      simp [step, he1, appCall, sendCall, ho, hr, Udp.send, Node.SendStep]
      split <;> simp [Except.isOk, Except.toBool]

theorem ep_any {e : Ep.State} {ok : Bool} (h : (Ep.ep true e ok).isSome = true) :
    (Ep.ep true e true).isSome = true := by
  cases ok with
  | true => exact h
  | false =>
    unfold Ep.ep at h ⊢
    split at h <;> simp_all
    all_goals grind

theorem can_ep (k : Link s) {ok : Bool} {e : Ep.State} {o : Ep.Obs}
    (he : Ep.step true s.ep (.ep ok) = some (e, o)) :
    (s.udp.pc.locked = true ∧ ∃ id, s.ep.pc = .serveListen id) ∨
      ∃ s' w, step s (.app (.ep true)) = some (s', w) := by
  have ho : s.udp.owner = true := k.owner.mpr fun hp => by simp [Ep.step, Ep.ep, hp] at he
  obtain ⟨⟨e1, o1⟩, he1⟩ : ∃ y, Ep.step true s.ep (.ep true) = some y :=
    Option.isSome_iff_exists.mp (ep_any (Option.isSome_iff_exists.mpr ⟨_, he⟩))
  have hl : e1.lisCount = s.ep.lisCount ∨ ∃ id, s.ep.pc = .serveListen id := by
    cases Ep.move_of_step he1 <;> simp_all
  simp only [step, he1, appCall, epCall, if_true]
  rcases hl with hl | hl
  · right
    cases o1 <;> simp [Udp.step, Udp.connect, call, ho, still, hl]
  · cases hk : s.udp.pc.locked with
    | true => exact .inl ⟨rfl, hl⟩
    | false =>
      right
      by_cases hq : e1.lisCount = s.ep.lisCount <;> cases o1 <;>
        simp [Udp.step, Udp.connect, Udp.listen, call, ho, hk, still, hq]

/-- The endpoint's calls do not move the receiving task. -/
theorem Call.pc {x : Ep.Action} {e : Ep.State} {o : Ep.Obs} {s' : State}
    {us : List (Udp.Action × Udp.Obs)} {out : List (Addr × Bytes)} (h : Call s x e o s' us out) :
    s'.udp.pc = s.udp.pc := by
  have key : ∀ {u v : Udp.State} {a : Udp.Action} {w : Udp.Obs}, Udp.step u a = some (v, w) →
      a ≠ .task → a ≠ .failure → (∀ b p, a ≠ .datagram b p) → v.pc = u.pc := by
    intro u v a w h h1 h2 h3
    cases Udp.move_of_step h <;> first | rfl | exact absurd rfl h1 | exact absurd rfl h2 | exact absurd rfl (h3 _ _)
  cases h with
  | acceptNone l v v' w hx hu hu' => exact (key hu' nofun nofun nofun).trans (key hu nofun nofun nofun)
  | recvEnd c r v v' w w' hx hr ha hu hu' =>
    exact (key hu' nofun nofun nofun).trans (key hu nofun nofun nofun)
  | send => rfl
  | still => rfl
  | _ =>
    rename_i hu
    exact key hu nofun nofun nofun

/-- How far the receiving task has come with a datagram. -/
def rank : Udp.Pc → Nat
  | .idle => 0
  | .stopped => 0
  | .lookup .. => 0
  | .found .. => 1
  | .stale .. => 2
  | .admit .. => 3
  | .queued .. => 4
  | .filled .. => 5

/-- While it deals with a datagram, the receiving task comes nearer to the end with every step, and the
steps of others do not move it. -/
theorem pc_step {x : Action} {o : Obs} {s' : State} (h : step s x = some (s', o))
    (hi : s.udp.pc ≠ .idle) (hj : s'.udp.pc ≠ .idle) :
    (x ≠ .task ∧ s'.udp.pc = s.udp.pc) ∨ x = .task ∧ rank s.udp.pc < rank s'.udp.pc := by
  have key : ∀ {u v : Udp.State} {a : Udp.Action} {w : Udp.Obs}, Udp.step u a = some (v, w) →
      u.pc ≠ .idle → v.pc ≠ .idle → (a ≠ .task ∧ v.pc = u.pc) ∨ a = .task ∧ rank u.pc < rank v.pc := by
    intro u v a w h h1 h2
    cases Udp.move_of_step h <;> simp_all [rank]
  cases move_of_step h with
  | app y e o s' us out he hc => exact .inl ⟨nofun, hc.pc⟩
  | net _ u v w ha hn hd hu =>
    cases x with
    | app y => exact absurd rfl (ha y)
    | task =>
      simp only [step] at h
      split at h
      · rename_i hu2
        cases h
        rcases key hu2 hi hj with ⟨h1, _⟩ | ⟨_, h1⟩
        · exact absurd rfl h1
        · exact .inr ⟨rfl, h1⟩
      · cases h
    | datagram b p =>
      simp only [step] at h
      split at h
      · rename_i hu2
        cases h
        rcases key hu2 hi hj with ⟨_, h1⟩ | ⟨h1, _⟩
        · exact .inl ⟨nofun, h1⟩
        · cases h1
      · cases h
    | failure =>
      simp only [step] at h
      split at h
      · rename_i hu2
        cases h
        rcases key hu2 hi hj with ⟨_, h1⟩ | ⟨h1, _⟩
        · exact .inl ⟨nofun, h1⟩
        · cases h1
      · cases h

theorem can_task (h : s.udp.pc ≠ .idle) (h' : s.udp.pc ≠ .stopped) :
    ∃ s' w, step s .task = some (s', w) := by
  cases hp : s.udp.pc with
  | idle => exact absurd hp h
  | stopped => exact absurd hp h'
  | lookup a p =>
    cases hg : s.udp.receivers.get a <;> simp [step, Udp.step, Udp.task, hp, hg]
  | found a p c =>
    cases hr : (s.udp.chans c).rx <;> simp [step, Udp.step, Udp.task, hp, hr]
  | queued a p c =>
    cases hr : (s.udp.chans c).rx <;> simp [step, Udp.step, Udp.task, hp, hr]
  | _ => simp [step, Udp.step, Udp.task, hp]

/-! ### Fair runs -/

variable {r : Run}

theorem does_app {n : Nat} {P : Ep.Action → Prop} {Q : Action → Prop}
    (hq : ∀ y, Q y → ∃ x, y = .app x ∧ P x) (h : r.Does n Q) : (epRun r).Does n P := by
  obtain ⟨a, o, h1, h2⟩ := h
  obtain ⟨x, rfl, hx⟩ := hq a h2
  rcases r.move n with ⟨h3, _⟩ | ⟨a', o', h3, h4⟩
  · rw [h1] at h3; cases h3
  · rw [h1] at h3
    cases h3
    generalize r.state (n + 1) = t at h4
    cases move_of_step h4 with
    | app x e o s' us out he hc => exact ⟨x, o, by show (r.act n).bind part = _; rw [h1]; rfl, hx⟩
    | net _ u v w ha => exact absurd rfl (ha x)

theorem fair_app {P : Ep.Action → Prop} {Q : Action → Prop} (hf : r.FairTo Q)
    (hq : ∀ y, Q y → ∃ x, y = .app x ∧ P x)
    (hp : ∀ n, Ep.Enabled true (r.state n).ep P → r.Can n Q) : (epRun r).FairTo P := by
  intro h N
  obtain ⟨n, h1, h2⟩ := hf (fun M => by
    obtain ⟨n, h1, h2⟩ := h M
    exact ⟨n, h1, hp n h2⟩) N
  exact ⟨n, h1, does_app hq h2⟩

/-- The receiving task gets done with every datagram. -/
theorem task_waits (ht : r.FairTo (· = .task)) (N : Nat) :
    ∃ n, N ≤ n ∧ ((r.state n).udp.pc = .idle ∨ (r.state n).udp.pc = .stopped) := by
  apply Classical.byContradiction
  intro hc
  have h1 : ∀ n, N ≤ n → (r.state n).udp.pc ≠ .idle ∧ (r.state n).udp.pc ≠ .stopped :=
    fun n hn => ⟨fun h => hc ⟨n, hn, .inl h⟩, fun h => hc ⟨n, hn, .inr h⟩⟩
  have h2 : ∀ n, N ≤ n → rank (r.state n).udp.pc ≤ rank (r.state (n + 1)).udp.pc ∧
      (r.Does n (· = .task) → rank (r.state n).udp.pc < rank (r.state (n + 1)).udp.pc) := by
    intro n hn
    rcases r.move n with ⟨h3, h4⟩ | ⟨a, o, h3, h4⟩
    · refine ⟨by rw [h4], fun ⟨a, o, h5, _⟩ => ?_⟩
      rw [h3] at h5
      cases h5
    · rcases pc_step h4 (h1 n hn).1 (h1 (n + 1) (by omega)).1 with ⟨h5, h6⟩ | ⟨rfl, h5⟩
      · refine ⟨by rw [h6], fun ⟨a', o', h7, h8⟩ => ?_⟩
        rw [h3] at h7
        cases h7
        exact absurd h8 h5
      · exact ⟨Nat.le_of_lt h5, fun _ => h5⟩
  obtain ⟨n, h4, h5⟩ := r.grows ht (fun n => rank (r.state n).udp.pc) (fun n hn => (h2 n hn).1)
    (fun n hn => (h2 n hn).2) (fun M => by
      obtain ⟨h3, h4⟩ := h1 (max M N) (Nat.le_max_right ..)
      obtain ⟨s', w, h5⟩ := can_task h3 h4
      exact ⟨max M N, Nat.le_max_left .., _, w, s', rfl, h5⟩) 6
  have : ∀ p, rank p ≤ 5 := fun p => by cases p <;> simp [rank]
  have := this (r.state n).udp.pc
  omega

/-- The receiving task does not keep the lock for ever. -/
theorem unlocks (ht : r.FairTo (· = .task)) (N : Nat) :
    ∃ n, N ≤ n ∧ (r.state n).udp.pc.locked = false := by
  obtain ⟨n, h1, h2⟩ := task_waits ht N
  exact ⟨n, h1, by rcases h2 with h2 | h2 <;> rw [h2] <;> rfl⟩

theorem ep_fair_send {c : Nat} (hf : r.FairTo (Node.SendStep c)) : (epRun r).FairTo (Ep.SendStep c) := by
  refine fair_app hf (fun y hy => ?_) ?_
  · rcases hy with rfl | ⟨ok, rfl⟩
    · exact ⟨_, rfl, .inl rfl⟩
    · exact ⟨_, rfl, .inr ⟨ok, rfl⟩⟩
  · rintro n ⟨a, o, s', ha, h⟩
    obtain ⟨y, s1, w, h1, h2⟩ := can_send (link (r.exec n)) (Ep.good_hist (parts (r.exec n)).1).1 ha h
    exact ⟨y, w, s1, h1, h2⟩

/-- The endpoint's part of a run in which nobody is passed over is such a run. -/
theorem ep_fair (hf : Fair r) : (epRun r).Fair := by
  have hl := fun n => link (r.exec n)
  have hg := fun n => (Ep.good_hist (parts (r.exec n)).1).1
  constructor
  · intro h N
    apply Classical.byContradiction
    intro hN
    have h0 : ∀ n, N ≤ n → ¬ (epRun r).Does n Ep.EpStep := fun n hn hd => hN ⟨n, hn, hd⟩
    have h1 : ∃ M, N ≤ M ∧ ∀ n, M ≤ n → ¬ r.Can n EpStep := by
      apply Classical.byContradiction
      intro hc
      obtain ⟨n, h2, h3⟩ := hf.ep (fun M => by
        apply Classical.byContradiction
        intro hm
        exact hc ⟨max M N, Nat.le_max_right .., fun n hn he =>
          hm ⟨n, Nat.le_trans (Nat.le_max_left ..) hn, he⟩⟩) N
      exact h0 n h2 (does_app (fun y ⟨ok, hy⟩ => ⟨_, hy, ok, rfl⟩) h3)
    obtain ⟨M, h1, h2⟩ := h1
    obtain ⟨n, h3, a, o, s', ⟨ok, rfl⟩, h4⟩ := h M
    rcases can_ep (hl n) h4 with ⟨h5, id, h6⟩ | ⟨s1, w, h5⟩
    · have h7 : ∀ m, n ≤ m → (r.state m).ep.pc = .serveListen id := by
        refine (epRun r).stays (P := fun s => s.pc = .serveListen id) h6 ?_
        intro m a o s s' hm ha _ hp hmv
        have h12 : ∀ ok, a ≠ .ep ok := by
          rintro ok rfl
          exact h0 m (by omega) ⟨_, _, ha, ok, rfl⟩
        cases hmv <;> first | exact hp | exact absurd rfl (h12 _)
      obtain ⟨m, h8, h9⟩ := unlocks hf.task n
      have h10 := h7 m h8
      obtain ⟨⟨e1, o1⟩, h11⟩ : ∃ y, Ep.step true (r.state m).ep (.ep true) = some y := by
        simp only [Ep.step, Ep.ep, h10]
        split <;> simp
        split <;> simp
      rcases can_ep (hl m) h11 with ⟨h12, _⟩ | ⟨s1, w, h12⟩
      · rw [h9] at h12; cases h12
      · exact h2 m (by omega) ⟨_, w, s1, ⟨true, rfl⟩, h12⟩
    · exact h2 n h3 ⟨_, w, s1, ⟨true, rfl⟩, h5⟩
  · intro l
    refine fair_app (hf.lis l) (fun y hy => ⟨_, hy, rfl⟩) ?_
    rintro n ⟨a, o, s', rfl, h⟩
    obtain ⟨s1, w, h1⟩ := can_lis (hl n) (hg n) h
    exact ⟨_, w, s1, rfl, h1⟩
  · intro c
    refine fair_app (hf.route c) (fun y hy => ⟨_, hy, rfl⟩) ?_
    rintro n ⟨a, o, s', rfl, h⟩
    obtain ⟨s1, w, h1⟩ := can_still h rfl
    exact ⟨_, w, s1, rfl, h1⟩
  · exact fun c => ep_fair_send (hf.send c)
  · intro k
    refine fair_app (hf.call k) (fun y hy => ⟨_, hy, rfl⟩) ?_
    rintro n ⟨a, o, s', rfl, h⟩
    obtain ⟨s1, w, h1⟩ := can_still h rfl
    exact ⟨_, w, s1, rfl, h1⟩

theorem ep_read (hr : Read r) : (epRun r).Read := ⟨hr.stubs, hr.proxies⟩

theorem ep_settles (hs : Settles r) : (epRun r).Settles := by
  obtain ⟨N, hN⟩ := hs
  refine ⟨N, fun n hn hd => ?_⟩
  obtain ⟨a, o, h1, h2⟩ := hd
  have h1 : (r.act n).bind part = some (a, o) := h1
  obtain ⟨⟨x, w⟩, h3, h4⟩ := Option.bind_eq_some_iff.mp h1
  have h5 : x = .app a := by
    rcases x with x | _ | _ | _ <;> simp [part] at h4
    exact congrArg _ h4.2
  subst h5
  refine hN n hn ⟨_, w, h3, ?_⟩
  rcases h2 with ⟨i, j, rfl⟩ | ⟨b, c, rfl⟩
  · exact .inl ⟨i, j, rfl⟩
  · exact .inr ⟨b, c, rfl⟩

/-- Something is left in the channel of a connection that waits for it. -/
theorem can_recv (k : Link s) {c : Nat} (hc : c < s.ep.connCount)
    (ha : (s.ep.conns c).alive = true) (hw : (s.ep.conns c).pc = .wait)
    (hq : (s.udp.chans (s.chan c)).queue ≠ [] ∨ (s.udp.chans (s.chan c)).missed ≠ 0) :
    ∃ y s' w, RecvStep c y ∧ step s y = some (s', w) := by
  obtain ⟨h1, h2, h4, h3⟩ := k.chan c hc
  rw [ha] at h3
  rcases Nat.eq_zero_or_pos (s.udp.chans (s.chan c)).missed with hm | hm
  · cases hq' : (s.udp.chans (s.chan c)).queue with
    | nil => rw [hq'] at hq; simp [hm] at hq
    | cons p q =>
      refine ⟨.app (.packet c (.packet p)), ?_⟩
      rcases receive_packet p with ⟨ms, hp, _⟩ | ⟨⟨er, hp⟩, _⟩ <;>
        simp [RecvStep, step, Ep.step, Ep.packet, ha, hw, hp, appCall, recvCall, Udp.step, Udp.recv, h1, h2,
          h3, hm, hq', received, release, still, upd]
  · refine ⟨.app (.packet c (.lagged (s.udp.chans (s.chan c)).missed)), ?_⟩
    simp [RecvStep, step, Ep.step, Ep.packet, ha, hw, receive, appCall, recvCall, Udp.step, Udp.recv, h1, h2,
      h3, hm, received, release, still]

/-- A listener that waits for connections takes one that is there. -/
theorem can_accept (k : Link s) (hg : Ep.Good s.ep) {l : Nat}
    (ha : (s.ep.liss l).alive = true) (hw : (s.ep.liss l).pc = .wait)
    (hq : (s.udp.backlogs (s.backlog l)).queue ≠ []) :
    ∃ y s' w, AcceptStep l y ∧ step s y = some (s', w) := by
  have hb := k.backlog l (lis_lt hg ha)
  rw [ha] at hb
  cases hq' : (s.udp.backlogs (s.backlog l)).queue with
  | nil => exact absurd hq' hq
  | cons x q =>
    obtain ⟨d, a⟩ := x
    refine ⟨.app (.accept l a), ?_⟩
    simp [AcceptStep, step, Ep.step, ha, hw, appCall, acceptCall, Udp.step, Udp.accept, hb, hq']

end Rsomeip.Rt.Node
