import Verif.Lemmas.EpMove
import Verif.Lemmas.EpAsk
import Verif.Lemmas.EpWire
import Verif.Lemmas.EpWork
import Verif.Lemmas.EpOpen
import Verif.Lemmas.EpConn

/-! # An endpoint that cannot go on by itself -/

namespace Rsomeip.Rt.Ep

open Someip (InterfaceId)
open Spec.Ep

/-- No task and no call of `send_to` can go on, and no handle's queue is full. -/
structure Quiet (dg : Bool) (s : State) : Prop where
  ep : step dg s (.ep true) = none
  lisShare : ∀ l, step dg s (.lisShare l) = none
  lisCmd : ∀ l, step dg s (.lisCmd l) = none
  route : ∀ c, step dg s (.route c) = none
  connCmd : ∀ c, step dg s (.connCmd c) = none
  sent : ∀ c, step dg s (.sent c false) = none
  stubStep : ∀ k, step dg s (.stubStep k) = none
  stubs : ∀ k, (s.stubs k).alive = true → (s.ifaces (s.stubs k).iface).queue.length < ifCap
  proxies : ∀ p, (s.proxies p).alive = true → (s.ifaces (s.proxies p).iface).queue.length < ifCap

section
variable {dg : Bool} {s : State}

theorem no_move {a : Action} {o : Obs} {s' : State} (h : step dg s a = none) (m : Move dg s a o s') :
    False := by rw [step_of_move m] at h; cases h

theorem Quiet.out (h : Quiet dg s) (c : Nat) : (s.conns c).out = none := by
  cases ho : (s.conns c).out with
  | none => rfl
  | some b =>
    have := h.sent c
    simp [step, Ep.sent, ho] at this

theorem Quiet.lisCmds (h : Quiet dg s) {l : Nat} (ha : (s.liss l).alive = true) :
    (s.liss l).cmds = [] ∧ s.lisStrong l = true := by
  have := h.lisCmd l
  cases hq : (s.liss l).cmds with
  | nil => simpa [step, Ep.lisCmd, ha, hq] using this
  | cons x q => simp [step, Ep.lisCmd, ha, hq] at this

theorem Quiet.connCmds (h : Quiet dg s) {c : Nat} (ha : (s.conns c).alive = true) :
    (s.conns c).cmds = [] ∧ s.connStrong c = true := by
  have := h.connCmd c
  have ho := h.out c
  cases hq : (s.conns c).cmds with
  | nil => simpa [step, Ep.connCmd, ha, hq, ho] using this
  | cons x q => cases x <;> simp [step, Ep.connCmd, ha, hq, ho, outgoing_eq] at this

theorem Quiet.not_sending (h : Quiet dg s) (k : Nat) {a : Addr} {m : Msg} {c : Nat} :
    (s.stubs k).pc ≠ .sending a m c := by
  intro hp
  have := h.stubStep k
  cases ha : (s.conns c).alive with
  | true => simp [step, Ep.stubStep, hp, ha, h.connCmds ha, connCap] at this
  | false => simp [step, Ep.stubStep, hp, ha] at this

theorem Quiet.peerLocked (h : Quiet dg s) (hf : Fresh s) (a : Addr) : s.peerLocked a = false := by
  cases hl : s.peerLocked a with
  | false => rfl
  | true =>
    obtain ⟨k, _, m, c, hk, _⟩ := (peerLocked_iff hf a).mp hl
    exact absurd hk (h.not_sending k)

theorem Quiet.holds (h : Quiet dg s) (i : Nat) : s.pc.holds i = false := by
  have := h.ep
  cases hp : s.pc with
  | serveTake id l j =>
    cases ha : (s.liss l).alive with
    | true => simp [step, Ep.ep, hp, ha, h.lisCmds ha, lisCap] at this
    | false => simp [step, Ep.ep, hp, ha] at this
  | proxyTake id a c j =>
    cases ha : (s.conns c).alive with
    | true => simp [step, Ep.ep, hp, ha, h.connCmds ha, connCap] at this
    | false => simp [step, Ep.ep, hp, ha] at this
  | _ => rfl

theorem Quiet.not_putting (h : Quiet dg s) (hr : Readers s) (c : Nat) {i : Nat} {m : Msg}
    {ms : List Msg} : (s.conns c).pc ≠ .sending i m ms := by
  intro hp
  have := h.route c
  cases hx : (s.ifaces i).rx with
  | false => simp [step, Ep.route, hp, hx] at this
  | true =>
    obtain ⟨x, hx'⟩ := hr.some i hx
    have hl : (s.ifaces i).queue.length < ifCap := by
      cases x with
      | stub k => rw [← hx'.2]; exact h.stubs k hx'.1
      | proxy p => rw [← hx'.2]; exact h.proxies p hx'.1
      | task => rw [Reads, h.holds i] at hx'; cases hx'
    simp [step, Ep.route, hp, hx, hl] at this

theorem Quiet.ifLocked (h : Quiet dg s) (hr : Readers s) (id : InterfaceId) :
    s.ifLocked id = false := by
  cases hl : s.ifLocked id with
  | false => rfl
  | true =>
    simp only [State.ifLocked, List.any_eq_true] at hl
    obtain ⟨c, _, hl⟩ := hl
    cases hp : (s.conns c).pc with
    | sending i m ms => exact absurd hp (h.not_putting hr c)
    | _ => rw [hp] at hl; cases hl

theorem Quiet.waits (h : Quiet dg s) (hr : Readers s) (c : Nat) : (s.conns c).pc = .wait := by
  have := h.route c
  cases hp : (s.conns c).pc with
  | wait => rfl
  | sending i m ms => exact absurd hp (h.not_putting hr c)
  | route ms =>
    cases ms with
    | nil => simp [step, Ep.route, hp] at this
    | cons m ms =>
      simp only [step, Ep.route, hp, h.ifLocked hr] at this
      cases hg : s.shared.get (InterfaceId.of m) with
      | none => simp [hg] at this
      | some i => cases hs : s.ifStrong i <;> simp [hg, hs] at this

theorem Quiet.pc (h : Quiet dg s) (hf : Fresh s) (hr : Readers s) :
    s.pc = .stopped ∨ s.pc = .idle ∧ s.cmds = [] ∧ s.epStrong = true := by
  have := h.ep
  cases hp : s.pc with
  | stopped => exact .inl rfl
  | idle =>
    simp only [step, Ep.ep, hp, epCmd] at this
    cases hq : s.cmds with
    | nil => rw [hq] at this; cases hs : s.epStrong <;> simp [hs] at this ⊢
    | cons x q => rw [hq] at this; cases x <;> simp at this
  | serveCheck id => cases hk : s.known id <;> simp [step, Ep.ep, hp, h.ifLocked hr, hk] at this
  | serveListen id =>
    cases hl : s.listener with
    | none => simp [step, Ep.ep, hp, hl] at this
    | some l => cases hs : s.lisStrong l <;> simp [step, Ep.ep, hp, hl, hs] at this
  | serveShare id l => simp [step, Ep.ep, hp, create, h.ifLocked hr] at this
  | serveTake id l i => have := h.holds i; simp [hp, EpPc.holds] at this
  | proxyCheck id a => cases hk : s.known id <;> simp [step, Ep.ep, hp, h.ifLocked hr, hk] at this
  | proxyGet id a =>
    cases hl : s.peers.get a with
    | none => simp [step, Ep.ep, hp, hl, h.peerLocked hf] at this
    | some c => cases hs : s.connStrong c <;> simp [step, Ep.ep, hp, hl, hs, h.peerLocked hf] at this
  | proxyConnect id a => simp [step, Ep.ep, hp] at this
  | proxyShare id a c => simp [step, Ep.ep, hp, create, h.ifLocked hr] at this
  | proxyTake id a c i => have := h.holds i; simp [hp, EpPc.holds] at this
  | connect k a t => cases dg <;> simp [step, Ep.ep, hp] at this

theorem Quiet.lisWaits (h : Quiet dg s) (hf : Fresh s) (l : Nat) : (s.liss l).pc = .wait := by
  have := h.lisShare l
  cases hp : (s.liss l).pc with
  | wait => rfl
  | share c => simp [step, Ep.lisShare, hp, h.peerLocked hf] at this

end

/-- Every stub that waits for an answer has a request in the queue, or the endpoint task is at it. -/
def Asks (s : State) : Prop :=
  ∀ k a m t, (s.stubs k).pc = .asked a m t → (∃ b, .connect k b t ∈ s.cmds) ∨ ∃ b, s.pc = .connect k b t

theorem answer_asked {s : State} {k t c j u : Nat} {b : Addr} {m : Msg}
    (h : (answer s k t c j).pc = .asked b m u) : (s.stubs j).pc = .asked b m u ∧ (j = k → u ≠ t) := by
  have key : (s.stubs j).pc = .asked b m u → (j = k → u ≠ t) → _ ∧ _ := fun h1 h2 => ⟨h1, h2⟩
  cases hp : (s.stubs k).pc with
  | asked b' m' u' =>
    simp only [answer, hp] at h
    by_cases hu : u' = t
    · rw [if_pos hu] at h
      by_cases hj : j = k
      · subst hj; rw [upd_same] at h; cases h
      · rw [upd_ne _ _ hj] at h; exact key h fun h => absurd h hj
    · rw [if_neg hu] at h
      refine key h ?_
      rintro rfl; rw [hp] at h; cases h; exact hu
  | _ =>
    simp only [answer, hp] at h
    refine key h ?_
    rintro rfl; rw [hp] at h; cases h

theorem refuse_asked {s : State} {k t j u : Nat} {b : Addr} {m : Msg}
    (h : (refuse s k t j).pc = .asked b m u) : (s.stubs j).pc = .asked b m u ∧ (j = k → u ≠ t) := by
  have key : (s.stubs j).pc = .asked b m u → (j = k → u ≠ t) → _ ∧ _ := fun h1 h2 => ⟨h1, h2⟩
  cases hp : (s.stubs k).pc with
  | asked b' m' u' =>
    simp only [refuse, hp] at h
    by_cases hu : u' = t
    · rw [if_pos hu] at h
      by_cases hj : j = k
      · subst hj; rw [upd_same] at h; cases h
      · rw [upd_ne _ _ hj] at h; exact key h fun h => absurd h hj
    · rw [if_neg hu] at h
      refine key h ?_
      rintro rfl; rw [hp] at h; cases h; exact hu
  | _ =>
    simp only [refuse, hp] at h
    refine key h ?_
    rintro rfl; rw [hp] at h; cases h

theorem Asks.step {dg : Bool} {s s' : State} {a : Action} {o : Obs} (h : Asks s)
    (m : Move dg s a o s') : Asks s' := by
  intro k b x t hk
  have h1 := h k
  clear h
  cases m
  case epConnect ok k' a' t' q hp hq =>
    rcases h1 b x t hk with ⟨c, h2⟩ | ⟨c, h2⟩
    · rw [hq] at h2
      rcases List.mem_cons.mp h2 with h2 | h2
      · cases h2; exact .inr ⟨_, rfl⟩
      · exact .inl ⟨c, h2⟩
    · rw [hp] at h2; cases h2
  case connectOk k' a' t' hp _ =>
    obtain ⟨h2, h3⟩ := answer_asked hk
    rcases h1 b x t h2 with h4 | ⟨c, h4⟩
    · exact .inl h4
    · rw [hp] at h4; cases h4; exact absurd rfl (h3 rfl)
  case connectStale k' a' t' hp _ h2 =>
    rcases h1 b x t hk with h4 | ⟨c, h4⟩
    · exact .inl h4
    · rw [hp] at h4; cases h4; exact absurd ⟨b, x, hk⟩ h2
  case connectFail k' a' t' hp _ _ | connectRefused _ k' a' t' hp _ _ =>
    obtain ⟨h2, h3⟩ := refuse_asked hk
    rcases h1 b x t h2 with h4 | ⟨c, h4⟩
    · exact .inl h4
    · rw [hp] at h4; cases h4; exact absurd rfl (h3 rfl)
  case ask k' a' m' hw hq =>
    have hk : (s.stubAt k' (.asked a' m' s.asks) k).pc = .asked b x t := hk
    rw [stubAt_apply] at hk
    by_cases hj : k = k'
    · subst hj
      simp at hk
      obtain ⟨rfl, rfl, rfl⟩ := hk
      exact .inl ⟨_, List.mem_append_right _ (List.mem_singleton_self _)⟩
    · rw [if_neg hj] at hk
      rcases h1 b x t hk with ⟨c, h2⟩ | h2
      · exact .inl ⟨c, List.mem_append_left _ h2⟩
      · exact .inr h2
  all_goals first | exact h1 b x t hk | grind [upd, stubAt_apply]

/-- A task that has ended leaves nothing undone, and nobody can reach it. -/
def Over (s : State) : Prop :=
  s.pc = .stopped → s.cmds = [] ∧ s.handles = false ∧
    ∀ k a m, (s.stubs k).pc ≠ .asking a m ∧ (∀ t, (s.stubs k).pc ≠ .asked a m t) ∧
      ∀ c, (s.stubs k).pc ≠ .share a m c

theorem Over.step {dg : Bool} {s s' : State} {a : Action} {o : Obs} (h : Over s) (hf : Fresh s)
    (m : Move dg s a o s') : Over s' := by
  intro hp
  have h2 := epStrong_iff hf
  have h3 := answer_cases s
  have h4 := refuse_cases s
  by_cases hs : s.pc = .stopped
  · obtain ⟨h5, h6, h7⟩ := h hs
    have h8 : s.epStrong = false := by
      cases hx : s.epStrong with
      | false => rfl
      | true => grind
    clear h h2
    cases m <;> first | exact ⟨h5, h6, h7⟩ | (refine ⟨?_, ?_, fun k b x => ?_⟩ <;> grind [upd, stubAt_apply])
  · clear h
    cases m
    case epStop ok hi hq he =>
      have : ¬ (s.handles = true ∨ ∃ k a m, (s.stubs k).pc = .asking a m ∨
          (∃ t, (s.stubs k).pc = .asked a m t) ∨ ∃ c, (s.stubs k).pc = .share a m c) := by
        rw [← h2, he]; exact Bool.false_ne_true
      simp only [not_or, not_exists] at this
      refine ⟨hq, by simpa using this.1, fun k b x => ?_⟩
      exact this.2 k b x
    all_goals first | exact absurd hp hs | cases hp

theorem asks_over {dg : Bool} {tr : Trace} {s : State} (e : Exec (step dg) init tr s) :
    Asks s ∧ Over s := by
  induction e with
  | nil => exact ⟨by simp [Asks, Ep.init], by simp [Over, Ep.init]⟩
  | snoc e hs ih =>
    exact ⟨ih.1.step (move_of_step hs), ih.2.step (good_hist e).1.fresh (move_of_step hs)⟩

theorem Quiet.stubIdle {dg : Bool} {tr : Trace} {s : State} (e : Exec (step dg) init tr s)
    (h : Quiet dg s) (k : Nat) : (s.stubs k).pc = .idle := by
  have hg := (good_hist e).1
  have hl := h.peerLocked hg.fresh
  have hc : s.cmds = [] := by
    rcases h.pc hg.fresh hg.readers with h1 | h1
    · exact ((asks_over e).2 h1).1
    · exact h1.2.1
  have := h.stubStep k
  cases hp : (s.stubs k).pc with
  | idle => rfl
  | check a m =>
    cases hg : s.peers.get a with
    | none => cases he : s.epStrong <;> simp [step, Ep.stubStep, hp, hl, hg, he] at this
    | some c =>
      cases he : s.epStrong <;> cases hs : s.connStrong c <;>
        simp [step, Ep.stubStep, hp, hl, hg, he, hs] at this
  | asking a m => simp [step, Ep.stubStep, hp, hc, epCap] at this
  | asked a m t =>
    rcases (asks_over e).1 k a m t hp with ⟨b, h1⟩ | ⟨b, h1⟩
    · rw [hc] at h1; cases h1
    · rcases h.pc hg.fresh hg.readers with h2 | h2
      · rw [h2] at h1; cases h1
      · rw [h2.1] at h1; cases h1
  | share a m c => simp [step, Ep.stubStep, hp, hl] at this
  | enter a m =>
    cases hg : s.peers.get a with
    | none => simp [step, Ep.stubStep, hp, hl, hg] at this
    | some c => cases hs : s.connStrong c <;> simp [step, Ep.stubStep, hp, hl, hg, hs] at this
  | sending a m c => exact absurd hp (h.not_sending k)

theorem Quiet.cmds {dg : Bool} {tr : Trace} {s : State} (e : Exec (step dg) init tr s)
    (h : Quiet dg s) : s.cmds = [] ∧ s.pc.current = [] := by
  have hg := (good_hist e).1
  rcases h.pc hg.fresh hg.readers with h1 | h1
  · exact ⟨((asks_over e).2 h1).1, by rw [h1]; rfl⟩
  · exact ⟨h1.2.1, by rw [h1.1]; rfl⟩

end Rsomeip.Rt.Ep
