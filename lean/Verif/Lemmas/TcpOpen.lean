import Verif.Lemmas.TcpNode
import Verif.Lemmas.NodeOpen
import Verif.Lemmas.EpPipe

/-! # Listeners and connections that the operating system ends -/

namespace Rsomeip.Rt

open Spec.Ep

namespace Ep

section
variable {dg : Bool} {s s' : State} {a : Action} {o : Obs} {k l i : Nat}

/-- Stub `k` is open, and the task of its listener `l` has ended. -/
structure Deaf (k l : Nat) (s : State) : Prop where
  stub : (s.stubs k).alive = true
  lis : (s.stubs k).lis = l
  lt : l < s.lisCount
  dead : (s.liss l).alive = false

theorem Move.lis_dead (m : Move dg s a o s') (hl : l < s.lisCount) (h : (s.liss l).alive = false)
    (hp : (s.liss l).pc = .wait) :
    l < s'.lisCount ∧ (s'.liss l).alive = false ∧ (s'.liss l).pc = .wait := by
  cases m <;> first | exact ⟨hl, h, hp⟩ | grind [upd, newLis, deadLis]

/-- Nothing is accepted by a listener that has ended. -/
theorem Move.no_accept (m : Move dg s a o s') (h : (s.liss l).alive = false) :
    ∀ r, a ≠ .accept l r := by
  rintro r rfl
  cases m with
  | accept _ _ ha => rw [h] at ha; cases ha

/-- Nothing is served while the listener has ended. -/
theorem Move.no_serving (m : Move dg s a o s') (hs : Slot s) (h : (s.liss l).alive = false)
    (hl : s.listener = some l) : ∀ k i id, o ≠ .serving k i id := by
  rintro k i id rfl
  generalize hx : Obs.serving k i id = w at m
  cases m with
  | serveTake ok id' l' i' hpc ha =>
    have := hs.pc l' (by simp [hpc, EpPc.holdsLis])
    rw [hl] at this
    cases this
    rw [h] at ha
    cases ha
  | proxyRecv => split at hx <;> cases hx
  | _ => cases hx

theorem listener_lt {tr : Trace} (e : Exec (step dg) init tr s) (h : s.listener = some l) :
    l < s.lisCount := by
  induction e generalizing l with
  | nil => cases h
  | @snoc tr s s' a o e hs ih =>
    have m := move_of_step hs
    have h1 := @ih l
    clear hs ih e
    cases m <;> first | exact h1 h | grind

/-- Stubs and proxies have different channels, dropped ones included. -/
theorem cross {tr : Trace} (e : Exec (step dg) init tr s) : ∀ k p, k < s.stubCount →
    p < s.proxyCount → (s.stubs k).iface ≠ (s.proxies p).iface := by
  induction e with
  | nil => simp [init]
  | @snoc tr s s' a o e hs ih =>
    intro k p
    have m := move_of_step hs
    have h1 := ih k p
    have h2 := task_new e
    have h9 := answer_cases s
    have h10 := refuse_cases s
    clear hs ih e
    cases m <;> first | exact h1 | grind [upd, stubAt_apply, EpPc.holds]

/-- Only a connection that is just doing so can put something into the channel of such a stub. -/
theorem deaf_held {tr : Trace} (e : Exec (step dg) init tr s) (hk : Deaf k l s)
    (hi : (s.stubs k).iface = i) (hq : ∀ c m ms, (s.conns c).pc ≠ .sending i m ms) : ¬ Held s i := by
  have hg := (good_hist e).1
  have hlt := stub_lt hg.fresh hk.stub
  rintro (h | ⟨c, h⟩ | ⟨j, h⟩)
  · exact (once e).pc k i hlt h hi
  · rcases (Conn.holds_owns ..).mp h with h | ⟨m, ms, h⟩
    · obtain ⟨p, hp, h1, _⟩ := (own e).conns c i h
      exact cross e k p hlt hp (hi.trans h1.symm)
    · exact hq c m ms h
  · obtain ⟨k', h1, h2, h3⟩ := (own e).liss j i h
    have h4 := (once e).stubs k k' hlt h1 (hi.trans h2.symm)
    subst h4
    rw [hk.lis] at h3
    subst h3
    obtain ⟨h5, h6, _⟩ := hg.ended.liss l hk.dead
    simp [Lis.holds, h5, h6, Map.empty] at h

/-- A channel without a sender stays without one, and nothing is put into it. -/
theorem unheld_next (hg : Good s) (hi : i < s.ifCount) (h : ¬ Held s i) (m : Move dg s a o s') :
    i < s'.ifCount ∧ ¬ Held s' i ∧ ∀ n b, o ≠ .routed i n b := by
  refine ⟨(m.id hi).1, fun hh => h (m.held hg.fresh hi hh), ?_⟩
  rintro n b rfl
  generalize hx : Obs.routed i n b = w at m
  cases m with
  | put c j n' ms hw => cases hx; exact h (sending_held hw)
  | proxyRecv => split at hx <;> cases hx
  | _ => cases hx

/-- Stubs are dropped by their user. -/
theorem Move.stub_drop (m : Move dg s a o s') (h : (s.stubs k).alive = true) :
    (s'.stubs k).alive = true ∨ (a, o) = (.dropStub k, .none) := by
  have h3 := answer_cases s
  have h4 := refuse_cases s
  cases m <;> first | exact .inl h | grind [upd, stubAt_apply]

theorem Deaf.next (h : Deaf k l s) (hg : Good s) (m : Move dg s a o s')
    (hd : (a, o) ≠ (.dropStub k, .none)) : Deaf k l s' := by
  obtain ⟨h1, h2, h3, h4⟩ := h
  obtain ⟨h5, h6, _⟩ := m.lis_dead h3 h4 (hg.ended.liss l h4).2.2.2
  exact ⟨(m.stub_drop h1).resolve_right hd,
    ((m.stub_keep (stub_lt hg.fresh h1)).2.2).trans h2, h5, h6⟩

theorem Deaf.exec {tr t : Trace} (h : Deaf k l s) (e₀ : Exec (step dg) init tr s)
    (e : Exec (step dg) s t s') (hd : (.dropStub k, .none) ∉ t) : Deaf k l s' := by
  induction e with
  | nil => exact h
  | @snoc t s₁ s₂ a o e hs ih =>
    rw [List.mem_append, List.mem_singleton, not_or] at hd
    exact (ih hd.1).next (good_hist (e₀.append e)).1 (move_of_step hs) (fun h => hd.2 h.symm)

theorem unheld_exec {t : Trace} (hg : Good s) (hi : i < s.ifCount) (h : ¬ Held s i)
    (e : Exec (step dg) s t s') : ¬ Held s' i ∧ ∀ x ∈ t, ∀ n b, x.2 ≠ .routed i n b := by
  have : i < s'.ifCount ∧ ¬ Held s' i ∧ Good s' ∧ ∀ x ∈ t, ∀ n b, x.2 ≠ .routed i n b := by
    induction e with
    | nil => exact ⟨hi, h, hg, by simp⟩
    | snoc _ hs ih =>
      obtain ⟨h1, h2, h3, h4⟩ := ih
      have m := move_of_step hs
      obtain ⟨h5, h6, h7⟩ := unheld_next h3 h1 h2 m
      refine ⟨h5, h6, h3.step m, fun x hx => ?_⟩
      rcases List.mem_append.mp hx with hx | hx
      · exact h4 x hx
      · rw [List.mem_singleton.mp hx]; exact h7
  exact ⟨this.2.1, this.2.2.2⟩

end

end Ep

namespace TcpNode

open Spec.TcpNode

theorem app_append (t u : Spec.TcpNode.Trace) : app (t ++ u) = app t ++ app u := by
  simp only [app, List.filterMap_append]

/-- The endpoint's part of a history that goes on from somewhere. -/
theorem part_from {tr : Spec.TcpNode.Trace} {s s' : State} (e : Exec step s tr s') :
    Exec (Ep.step false) s.ep (app tr) s'.ep := by
  induction e with
  | nil => exact .nil
  | @snoc tr1 s1 s2 act ob _ hs ih =>
    rw [app_snoc]
    cases move_of_step hs <;> first
      | (simp only [Option.toList_none, List.append_nil]; exact ih)
      | exact .snoc ih ‹_›

theorem send_error {b b' w : Bytes} {n : Nat} {a : Tcp.WriteAnswer}
    (h : Tcp.send b n [] [a] = (.error b', w)) : a = .broken ∨ a = .failed := by
  cases a with
  | broken => exact .inl rfl
  | failed => exact .inr rfl
  | wouldBlock => simp [Tcp.send] at h
  | wrote k =>
    simp only [Tcp.send] at h
    split at h
    · cases h
    · split at h <;> cases h

theorem Move.to_closed {s s' : State} {x : Action} {w : Obs} (m : Move s x s' w) {c : Nat} {y : Ep.Obs}
    (h : w.ep = some (.packet c .closed, y)) : ∃ a, x = .read c a ∧ (a = .broken ∨ a = .failed) := by
  cases m with
  | app x e o h1 => cases h; exact absurd rfl (h1 _ _)
  | broken c a e o ha => cases h; exact ⟨a, rfl, ha⟩
  | _ => cases h

theorem Move.to_sent {s s' : State} {x : Action} {w : Obs} (m : Move s x s' w) {c : Nat} {y : Ep.Obs}
    (h : w.ep = some (.sent c false, y)) : ∃ a, x = .write c a ∧ (a = .broken ∨ a = .failed) := by
  cases m with
  | app x e o _ h2 => cases h; exact absurd rfl (h2 _ _)
  | failed c a b b' w e o hb hw => cases h; exact ⟨a, rfl, send_error hw⟩
  | _ => cases h

end TcpNode

end Rsomeip.Rt
