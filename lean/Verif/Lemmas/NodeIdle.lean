import Verif.Lemmas.EpQuiet
import Verif.Lemmas.NodeRest

/-! # An endpoint on a UDP socket that cannot go on by itself -/

namespace Rsomeip.Rt.Node

open Someip (InterfaceId)
open Spec Spec.Ep Spec.Node

/-- Nothing can happen without a call or a datagram. -/
def Rests (s : State) : Prop := ∀ x, x.internal = true → step s x = none

section
variable {s : State}

theorem Rests.udp (h : Rests s) : s.udp.pc = .idle ∨ s.udp.pc = .stopped := by
  have := h .task rfl
  cases hp : s.udp.pc with
  | idle => exact .inl rfl
  | stopped => exact .inr rfl
  | lookup a p =>
    cases hg : s.udp.receivers.get a <;> simp [step, Udp.step, Udp.task, hp, hg] at this
  | found a p c =>
    cases hr : (s.udp.chans c).rx <;> simp [step, Udp.step, Udp.task, hp, hr] at this
  | queued a p c =>
    cases hr : (s.udp.chans c).rx <;> simp [step, Udp.step, Udp.task, hp, hr] at this
  | _ => simp [step, Udp.step, Udp.task, hp] at this

/-- Dropping the receiver of a connection is always possible. -/
theorem can_release (k : Link s) (e : Ep.State) (o : Ep.Obs) {c : Nat} (hc : c < s.ep.connCount)
    (ha : (s.ep.conns c).alive = true) : ∃ r, release s e o c = some r := by
  obtain ⟨h1, h2, _, h3⟩ := k.chan c hc
  rw [ha] at h3
  simp only [release]
  split
  · exact ⟨_, rfl⟩
  · simp [call, Udp.step, Udp.dropReceiver, h1, h2, h3]

theorem none_of {α : Type} {x : Option α} (h : ∀ y, x = some y → False) : x = none := by
  cases x with
  | none => rfl
  | some y => exact (h y rfl).elim

theorem Rests.quiet (h : Rests s) (k : Link s) (hg : Ep.Good s.ep)
    (h1 : ∀ k, (s.ep.stubs k).alive = true →
      (s.ep.ifaces (s.ep.stubs k).iface).queue.length < Ep.ifCap)
    (h2 : ∀ p, (s.ep.proxies p).alive = true →
      (s.ep.ifaces (s.ep.proxies p).iface).queue.length < Ep.ifCap) : Ep.Quiet true s.ep := by
  have hu := h.udp
  constructor
  · refine none_of fun ⟨e, o⟩ he => ?_
    have hn := h (.app (.ep true)) rfl
    have ho : s.udp.owner = true := k.owner.mpr fun hp => by simp [Ep.step, Ep.ep, hp] at he
    have hl : s.udp.pc.locked = false := by rcases hu with h | h <;> rw [h] <;> rfl
    simp only [step, he, appCall, epCall, if_true] at hn
    by_cases hq : e.lisCount = s.ep.lisCount <;> cases o <;>
      simp [Udp.step, Udp.connect, Udp.listen, call, ho, hl, still, hq] at hn
  · intro l
    refine none_of fun ⟨e, o⟩ he => ?_
    have hn := h (.app (.lisShare l)) rfl
    simp [step, he, appCall, still] at hn
  · intro l
    refine none_of fun ⟨e, o⟩ he => ?_
    have hn := h (.app (.lisCmd l)) rfl
    have ha : (s.ep.liss l).alive = true := by
      cases ha : (s.ep.liss l).alive with
      | true => rfl
      | false => simp [Ep.step, Ep.lisCmd, ha] at he
    have hb := k.backlog l (lis_lt hg ha)
    rw [ha] at hb
    simp only [step, he, appCall] at hn
    split at hn <;> simp [still, call, Udp.step, Udp.dropListener, hb] at hn
  · intro c
    refine none_of fun ⟨e, o⟩ he => ?_
    have hn := h (.app (.route c)) rfl
    simp [step, he, appCall, still] at hn
  · intro c
    refine none_of fun ⟨e, o⟩ he => ?_
    have hn := h (.app (.connCmd c)) rfl
    have ha : (s.ep.conns c).alive = true := by
      cases ha : (s.ep.conns c).alive with
      | true => rfl
      | false => simp [Ep.step, Ep.connCmd, ha] at he
    obtain ⟨r, hr⟩ := can_release k e o (Ep.alive_lt hg.fresh ha) ha
    simp [step, he, appCall, hr] at hn
  · intro c
    refine none_of fun ⟨e, o⟩ he => ?_
    have hn := h (.app (.sent c false)) rfl
    cases ho : (s.ep.conns c).out with
    | none => simp [Ep.step, Ep.sent, ho] at he
    | some b =>
      have ha : (s.ep.conns c).alive = true := by
        cases ha : (s.ep.conns c).alive with
        | true => rfl
        | false => rw [(hg.ended.conns c ha).2.1] at ho; cases ho
      obtain ⟨⟨r, a, b, d⟩, hr⟩ := can_release k e o (Ep.alive_lt hg.fresh ha) ha
      simp [step, he, appCall, sendCall, ho, hr, Udp.send] at hn
      split at hn <;> simp [Except.isOk, Except.toBool] at hn
  · intro j
    refine none_of fun ⟨e, o⟩ he => ?_
    have hn := h (.app (.stubStep j)) rfl
    simp [step, he, appCall, still] at hn
  · exact h1
  · exact h2

/-- A running connection that waits for packets has read everything, and its channel is open. -/
theorem Rests.chan (h : Rests s) (k : Link s) (hg : Ep.Good s.ep) {c : Nat}
    (ha : (s.ep.conns c).alive = true) (hw : (s.ep.conns c).pc = .wait) :
    (s.udp.chans (s.chan c)).queue = [] ∧ (s.udp.chans (s.chan c)).missed = 0 ∧
      s.udp.hasSender (s.chan c) = true := by
  have hc := Ep.alive_lt hg.fresh ha
  obtain ⟨h1, h2, h4, h3⟩ := k.chan c hc
  rw [ha] at h3
  have hm : (s.udp.chans (s.chan c)).missed = 0 := by
    rcases Nat.eq_zero_or_pos (s.udp.chans (s.chan c)).missed with hm | hm
    · exact hm
    · have hn := h (.app (.packet c (.lagged (s.udp.chans (s.chan c)).missed))) rfl
      simp [step, Ep.step, Ep.packet, ha, hw, receive, appCall, recvCall, Udp.step, Udp.recv, h1, h2,
        h3, hm, received, release, still] at hn
  have hr : ∀ v e o, (v.chans (s.chan c)).rx = true → (v.chans (s.chan c)).held = true →
      s.chan c < v.chanCount → ∃ r, release { s with udp := v } e o c = some r := by
    intro v e o h1 h2 h3
    simp only [release]
    split
    · exact ⟨_, rfl⟩
    · simp [call, Udp.step, Udp.dropReceiver, h1, h2, h3]
  cases hq : (s.udp.chans (s.chan c)).queue with
  | nil =>
    refine ⟨rfl, hm, ?_⟩
    cases hs : s.udp.hasSender (s.chan c) with
    | true => rfl
    | false =>
      have hn := h (.app (.packet c .closed)) rfl
      simp [step, Ep.step, Ep.packet, ha, hw, receive, appCall, recvCall, Udp.step, Udp.recv, h1, h2,
        h3, hm, hq, hs, received, release, call, Udp.dropReceiver, upd, Ep.Conn.ended] at hn
  | cons p q =>
    have hn := h (.app (.packet c (.packet p))) rfl
    rcases receive_packet p with ⟨ms, hp, _⟩ | ⟨⟨er, hp⟩, _⟩ <;>
      simp [step, Ep.step, Ep.packet, ha, hw, hp, appCall, recvCall, Udp.step, Udp.recv, h1, h2,
        h3, hm, hq, received, release, still, upd] at hn

/-- A running listener that waits for connections has accepted all there are, and its queue is
open. -/
theorem Rests.backlog (h : Rests s) (k : Link s) (hg : Ep.Good s.ep) {l : Nat}
    (ha : (s.ep.liss l).alive = true) (hw : (s.ep.liss l).pc = .wait) :
    (s.udp.backlogs (s.backlog l)).queue = [] ∧ s.udp.listener = some (s.backlog l) ∧
      s.udp.shared = true := by
  have hb := k.backlog l (lis_lt hg ha)
  rw [ha] at hb
  cases hq : (s.udp.backlogs (s.backlog l)).queue with
  | nil =>
    refine ⟨rfl, ?_⟩
    by_cases hs : s.udp.listener = some (s.backlog l) ∧ s.udp.shared = true
    · exact hs
    · have hn := h (.app (.acceptNone l)) rfl
      simp [step, Ep.step, ha, hw, appCall, Udp.step, Udp.accept, hb, hq, hs,
        Udp.dropListener] at hn
  | cons x q =>
    obtain ⟨d, a⟩ := x
    have hn := h (.app (.accept l a)) rfl
    simp [step, Ep.step, ha, hw, appCall, acceptCall, Udp.step, Udp.accept, hb, hq] at hn

/-- Nothing is left to do: these conditions can be checked. -/
structure Idle (s : State) : Prop where
  udp : s.udp.pc = .idle ∨ s.udp.pc = .stopped
  ep : s.ep.pc = .stopped ∨ s.ep.pc = .idle ∧ s.ep.cmds = [] ∧ s.ep.epStrong = true
  conns : ∀ c, c < s.ep.connCount → (s.ep.conns c).pc = .wait ∧ (s.ep.conns c).out = none ∧
    ((s.ep.conns c).alive = true → (s.ep.conns c).cmds = [] ∧ s.ep.connStrong c = true ∧
      (s.udp.chans (s.chan c)).queue = [] ∧ (s.udp.chans (s.chan c)).missed = 0 ∧
      s.udp.hasSender (s.chan c) = true)
  liss : ∀ l, l < s.ep.lisCount → (s.ep.liss l).pc = .wait ∧
    ((s.ep.liss l).alive = true → (s.ep.liss l).cmds = [] ∧ s.ep.lisStrong l = true ∧
      (s.udp.backlogs (s.backlog l)).queue = [] ∧ s.udp.listener = some (s.backlog l) ∧
      s.udp.shared = true)
  stubs : ∀ k, k < s.ep.stubCount → (s.ep.stubs k).pc = .idle

theorem Idle.rests (h : Idle s) (hg : Ep.Good s.ep) : Rests s := by
  have hc : ∀ c, (s.ep.conns c).pc = .wait ∧ (s.ep.conns c).out = none ∧
    ((s.ep.conns c).alive = true → (s.ep.conns c).cmds = [] ∧ s.ep.connStrong c = true ∧
      (s.udp.chans (s.chan c)).queue = [] ∧ (s.udp.chans (s.chan c)).missed = 0 ∧
      s.udp.hasSender (s.chan c) = true) := fun c => by
    rcases Nat.lt_or_ge c s.ep.connCount with h1 | h1
    · exact h.conns c h1
    · rw [hg.fresh.conns c h1]; simp
  have hl : ∀ l, (s.ep.liss l).pc = .wait ∧
    ((s.ep.liss l).alive = true → (s.ep.liss l).cmds = [] ∧ s.ep.lisStrong l = true ∧
      (s.udp.backlogs (s.backlog l)).queue = [] ∧ s.udp.listener = some (s.backlog l) ∧
      s.udp.shared = true) := fun l => by
    rcases Nat.lt_or_ge l s.ep.lisCount with h1 | h1
    · exact h.liss l h1
    · rw [hg.fresh.liss l h1]; simp
  have hk : ∀ k, (s.ep.stubs k).pc = .idle := fun k => by
    rcases Nat.lt_or_ge k s.ep.stubCount with h1 | h1
    · exact h.stubs k h1
    · rw [hg.fresh.stubs k h1]
  intro x hx
  cases x with
  | task => rcases h.udp with h | h <;> simp [step, Udp.step, Udp.task, h]
  | app y =>
    cases y with
    | ep ok => rcases h.ep with h | h <;> simp [step, Ep.step, Ep.ep, h, Ep.epCmd]
    | accept l a =>
      cases ha : (s.ep.liss l).alive with
      | false => simp [step, Ep.step, ha]
      | true =>
        by_cases hb : s.backlog l < s.udp.backlogCount ∧ (s.udp.backlogs (s.backlog l)).rx = true <;>
          simp [step, Ep.step, ha, hl l, appCall, acceptCall, Udp.step, Udp.accept, hb]
    | acceptNone l =>
      cases ha : (s.ep.liss l).alive with
      | false => simp [step, Ep.step, ha]
      | true =>
        by_cases hb : s.backlog l < s.udp.backlogCount ∧ (s.udp.backlogs (s.backlog l)).rx = true <;>
          simp [step, Ep.step, ha, hl l, appCall, Udp.step, Udp.accept, hb]
    | lisShare l => simp [step, Ep.step, Ep.lisShare, hl l]
    | lisCmd l =>
      cases ha : (s.ep.liss l).alive <;> simp [step, Ep.step, Ep.lisCmd, ha, hl l]
    | packet c r =>
      cases ha : (s.ep.conns c).alive with
      | false => simp [step, Ep.step, Ep.packet, ha]
      | true =>
        have h1 := (hc c).2.2 ha
        have : Udp.step s.udp (.recv (s.chan c)) = none := by
          simp [Udp.step, Udp.recv, h1]
        simp only [step]
        cases Ep.step true s.ep (.packet c r) with
        | none => rfl
        | some y => simp [appCall, recvCall, this]
    | route c => simp [step, Ep.step, Ep.route, hc c]
    | connCmd c =>
      cases ha : (s.ep.conns c).alive <;> simp [step, Ep.step, Ep.connCmd, ha, hc c]
    | sent c ok => simp [step, Ep.step, Ep.sent, hc c]
    | stubStep k => simp [step, Ep.step, Ep.stubStep, hk k]
    | _ => cases hx
  | _ => cases hx

end

end Rsomeip.Rt.Node
