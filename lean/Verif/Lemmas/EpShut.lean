import Verif.Lemmas.EpOwn
import Verif.Lemmas.EpMade

/-! # Channels that were reported as closed -/

namespace Rsomeip.Rt.Ep

open Spec.Ep

/-- Channel `i` is empty and has no sender. -/
structure Shut (i : Nat) (s : State) : Prop where
  lt : i < s.ifCount
  queue : (s.ifaces i).queue = []
  held : ¬ Held s i

section
variable {dg : Bool} {s s' : State} {a : Action} {o : Obs} {i : Nat}

theorem sending_held {c : Nat} {m : Msg} {ms : List Msg} (h : (s.conns c).pc = .sending i m ms) :
    Held s i := .inr (.inl ⟨c, (Conn.holds_iff ..).mpr (.inr (.inr ⟨m, ms, h⟩))⟩)

theorem Shut.next (h : Shut i s) (hf : Fresh s) (m : Move dg s a o s') : Shut i s' := by
  refine ⟨(m.id h.lt).1, ?_, fun hh => h.held (m.held hf h.lt hh)⟩
  have h1 := h.queue
  have h2 := h.lt
  have h3 := @sending_held s i
  have h4 := h.held
  clear h
  cases m <;> first | exact h1 | grind [upd, Iface.drop]

theorem Shut.quiet (h : Shut i s) (m : Move dg s a o s') : ∀ n b, o ≠ .routed i n b := by
  intro n b ho
  subst ho
  generalize hx : Obs.routed i n b = o at m
  cases m with
  | put c j n' ms hw =>
    cases hx
    exact h.held (sending_held hw)
  | proxyRecv => split at hx <;> cases hx
  | _ => cases hx

theorem Shut.exec {tr : Trace} (h : Shut i s) (hg : Good s) (e : Exec (step dg) s tr s') :
    Shut i s' := by
  have : Shut i s' ∧ Good s' := by
    induction e with
    | nil => exact ⟨h, hg⟩
    | snoc _ hs ih =>
      exact ⟨ih.1.next ih.2.fresh (move_of_step hs), ih.2.step (move_of_step hs)⟩
  exact this.1

theorem stubs_exec {tr : Trace} {k : Nat} (hk : k < s.stubCount) (e : Exec (step dg) s tr s') :
    k < s'.stubCount ∧ (s'.stubs k).iface = (s.stubs k).iface := by
  induction e with
  | nil => exact ⟨hk, rfl⟩
  | snoc _ hs ih =>
    have h := (move_of_step hs).stub_keep ih.1
    exact ⟨h.1, h.2.1.trans ih.2⟩

theorem proxies_exec {tr : Trace} {p : Nat} (hp : p < s.proxyCount) (e : Exec (step dg) s tr s') :
    p < s'.proxyCount ∧ (s'.proxies p).iface = (s.proxies p).iface ∧
      (s'.proxies p).conn = (s.proxies p).conn := by
  induction e with
  | nil => exact ⟨hp, rfl, rfl⟩
  | snoc _ hs ih =>
    have h := (move_of_step hs).proxy_keep ih.1
    exact ⟨h.1, h.2.1.trans ih.2.1, h.2.2.trans ih.2.2⟩

/-- A connection task that has ended stays ended. -/
theorem Move.conn_dead (m : Move dg s a o s') {c : Nat} (hc : c < s.connCount)
    (h : (s.conns c).alive = false) : (s'.conns c).alive = false := by
  cases m <;> first | exact h | grind [upd, Conn.ended]

theorem Move.connCount (m : Move dg s a o s') : s.connCount ≤ s'.connCount := by
  cases m <;> simp

theorem dead_exec {tr : Trace} {c : Nat} (hc : c < s.connCount) (h : (s.conns c).alive = false)
    (e : Exec (step dg) s tr s') : (s'.conns c).alive = false := by
  have : c < s'.connCount ∧ (s'.conns c).alive = false := by
    induction e with
    | nil => exact ⟨hc, h⟩
    | snoc _ hs ih =>
      have m := move_of_step hs
      exact ⟨Nat.lt_of_lt_of_le ih.1 m.connCount, m.conn_dead ih.1 ih.2⟩
  exact this.2

end

end Rsomeip.Rt.Ep
