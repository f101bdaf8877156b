import Verif.Lemmas.UdpSole
import Verif.Lemmas.EpFed
import Verif.Lemmas.EpConn
import Verif.Lemmas.EpQuiet
import Verif.Lemmas.NodeLink

/-! # Listeners and connections of open handles, on a UDP socket -/

namespace Rsomeip.Rt

namespace Ep

open Spec Spec.Ep

/-- Whoever owns a handle of a listener owns the one in the endpoint's slot. -/
structure Slot (s : State) : Prop where
  pc : ∀ l, s.pc.holdsLis l = true → s.listener = some l
  stubs : ∀ k, (s.stubs k).alive = true → s.listener = some (s.stubs k).lis

section
variable {dg : Bool} {s s' : State} {a : Action} {o : Obs}

theorem slot_pc (h : Slot s) (m : Move dg s a o s') :
    ∀ l, s'.pc.holdsLis l = true → s'.listener = some l := by
  intro l hl
  have h1 := h.pc l
  cases m <;> first
    | exact h1 hl
    | (simp [EpPc.holdsLis] at hl; done)
    | (simp [EpPc.holdsLis] at hl; simp_all [EpPc.holdsLis])

theorem Move.slot (m : Move dg s a o s') : s'.listener = s.listener ∨
    (∀ l, s.listener = some l → s.lisStrong l = false) := by
  cases m <;> first | exact .inl rfl | exact .inr ‹_›

theorem slot_stubs (hf : Fresh s) (h : Slot s) (m : Move dg s a o s') :
    ∀ k, (s'.stubs k).alive = true → s'.listener = some (s'.stubs k).lis := by
  intro k hk
  rcases m.stub_alive hk with h1 | ⟨_, id, l, i, h1, _, h2, _⟩
  · rw [(m.stub_keep (stub_lt hf h1)).2.2]
    have h2 := h.stubs k h1
    rcases m.slot with h3 | h3
    · rw [h3, h2]
    · have := h3 _ h2
      rw [(lisStrong_iff hf _).mpr (.inr ⟨k, h1, rfl⟩)] at this
      cases this
  · rw [h2]
    have h3 := h.pc l (by simp [h1, EpPc.holdsLis])
    rcases m.slot with h4 | h4
    · rw [h4, h3]
    · have := h4 _ h3
      rw [(lisStrong_iff hf _).mpr (.inl (by simp [h1, EpPc.holdsLis]))] at this
      cases this

/-- A listener with a handle ends only when the socket reports that it is closed. -/
theorem Move.lis_ends (m : Move dg s a o s') {l : Nat} (hl : l < s.lisCount)
    (h1 : (s.liss l).alive = true) (h2 : s.lisStrong l = true) :
    (s'.liss l).alive = true ∨ a = .acceptNone l := by
  cases m <;> first | exact .inl h1 | grind [upd, newLis, deadLis]

theorem Move.handles (m : Move dg s a o s') (h : s'.handles = false) :
    s.handles = false ∨ a = .close ∧ o = .none := by
  cases m <;> grind

end

theorem slot {dg : Bool} {tr : Trace} {s : State} (e : Exec (step dg) init tr s) : Slot s := by
  induction e with
  | nil => exact ⟨fun l h => by simp [init, EpPc.holdsLis] at h, fun k h => by simp [init] at h⟩
  | snoc e hs ih =>
    exact ⟨slot_pc ih (move_of_step hs), slot_stubs (good_hist e).1.fresh ih (move_of_step hs)⟩

/-- The endpoint task ends only after the `Endpoint` was dropped. -/
theorem stopped_hist {dg : Bool} {tr : Trace} {s : State} (e : Exec (step dg) init tr s) :
    (s.handles = false → (.close, .none) ∈ tr) ∧ (s.pc = .stopped → s.handles = false) := by
  refine ⟨?_, fun h => ((asks_over e).2 h).2.1⟩
  induction e with
  | nil => exact nofun
  | @snoc tr s s' a o e hs ih =>
    intro h
    rcases (move_of_step hs).handles h with h | ⟨rfl, rfl⟩
    · exact List.mem_append_left _ (ih h)
    · exact List.mem_append_right _ (List.mem_singleton_self _)

end Ep

namespace Node

open Spec Spec.Node

variable {tr : Trace} {s : State}

theorem Call.acceptNone_inv {s s' : State} {e : Ep.State} {o : Ep.Obs}
    {us : List (Udp.Action × Udp.Obs)} {out : List (Addr × Bytes)} {l : Nat}
    (h : Call s (.acceptNone l) e o s' us out) :
    ∃ v, Udp.step s.udp (.accept (s.backlog l)) = some (v, .acceptNone) := by
  cases h <;> simp_all

theorem Call.packet_inv {s s' : State} {e : Ep.State} {o : Ep.Obs}
    {us : List (Udp.Action × Udp.Obs)} {out : List (Addr × Bytes)} {c : Nat} {r : Recv}
    (h : Call s (.packet c r) e o s' us out) :
    ∃ v w, received w = some r ∧ Udp.step s.udp (.recv (s.chan c)) = some (v, w) := by
  cases h <;> simp_all

/-- The socket's tables are gone: the `Endpoint` was dropped and the operating system's socket
failed. -/
theorem over (e : Exec step init tr s) (h : s.udp.shared = false) :
    (.close, .none) ∈ app tr ∧ (.failure, .none) ∈ socket tr := by
  obtain ⟨e1, e2⟩ := parts e
  refine ⟨?_, (Udp.unshared e2 h).2⟩
  have h1 : s.udp.owner = false := by
    simp only [Udp.State.shared, Bool.or_eq_false_iff] at h
    exact h.1
  have h2 : s.ep.pc = .stopped := Decidable.byContradiction fun hn => by
    rw [(link e).owner.mpr hn] at h1
    cases h1
  exact (Ep.stopped_hist e1).1 ((Ep.stopped_hist e1).2 h2)

/-- The listener of an open stub lasts on a UDP socket. -/
theorem stub_listens (e : Exec step init tr s) {k : Nat} (hk : (s.ep.stubs k).alive = true) :
    (s.ep.liss (s.ep.stubs k).lis).alive = true ∨
      ((.close, .none) ∈ app tr ∧ (.failure, .none) ∈ socket tr) := by
  induction e with
  | nil => exact absurd hk (by simp [init, Ep.init])
  | @snoc tr s s' a o e hs ih =>
    have e1 := (parts e).1
    rw [app_snoc, socket_snoc]
    have more : ((.close, .none) ∈ app tr ∧ (.failure, .none) ∈ socket tr) →
        ((.close, .none) ∈ app tr ++ app [(a, o)] ∧ (.failure, .none) ∈ socket tr ++ o.udp) :=
      fun h => ⟨List.mem_append_left _ h.1, List.mem_append_left _ h.2⟩
    cases move_of_step hs with
    | net _ u v w ha hn hd hu => exact (ih hk).imp (fun h => h) more
    | app x ep o s' us out he hc =>
      rw [hc.ep] at hk ⊢
      have hm := Ep.move_of_step he
      have hf := (Ep.good_hist e1).1.fresh
      rcases hm.stub_alive hk with h1 | ⟨_, id, l, i, _, _, h2, _, h3, _⟩
      · rw [(hm.stub_keep (Ep.stub_lt hf h1)).2.2]
        refine (ih h1).elim (fun h2 => ?_) fun h => .inr (more h)
        have h3 := (Ep.slot e1).stubs k h1
        have h4 := (link e).listener _ h3
        refine (hm.lis_ends h4.1 h2 ((Ep.lisStrong_iff hf _).mpr (.inr ⟨k, h1, rfl⟩))).imp_right ?_
        rintro rfl
        obtain ⟨v, hu⟩ := hc.acceptNone_inv
        refine more (over e ?_)
        cases Udp.move_of_step hu with
        | acceptNone _ _ _ _ hne => exact hne (h4.2 h2)
      · exact .inl (h2 ▸ h3)

end Node

end Rsomeip.Rt
