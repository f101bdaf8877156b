import Verif.Props.Rt.NodeEnd

/-! # C97: weak handles of an endpoint -/

namespace Rsomeip

open Rt Rt.Ep Spec Spec.Ep
open Someip (InterfaceId)

/-- A call of `send_to` is making a connection: it is asking the endpoint for one, or it is putting the
one it got into the tables. -/
def Spec.Ep.Connecting (p : StubPc) : Prop :=
  ∃ a m, p = .asking a m ∨ (∃ t, p = .asked a m t) ∨ ∃ c, p = .share a m c

section
variable {dg : Bool} {tr : Spec.Ep.Trace} {s s' : Ep.State}

/-- An endpoint without handles never gets one again. -/
theorem Rt.Ep.Move.unheld {a : Action} {o : Obs} (hf : Fresh s) (hf' : Fresh s') (h : s.epStrong = false)
    (m : Move dg s a o s') : s'.epStrong = false := by
  have h2 := epStrong_iff hf
  have h3 := answer_cases s
  have h4 := refuse_cases s
  rw [h] at h2
  have h5 : s.handles = false := by
    cases hh : s.handles with
    | false => rfl
    | true => exact absurd (h2.mpr (.inl hh)) Bool.false_ne_true
  have h6 : ∀ k b x, (s.stubs k).pc ≠ .asking b x ∧ (∀ t, (s.stubs k).pc ≠ .asked b x t) ∧
      ∀ c, (s.stubs k).pc ≠ .share b x c := fun k b x =>
    ⟨fun hh => absurd (h2.mpr (.inr ⟨k, b, x, .inl hh⟩)) Bool.false_ne_true,
      fun t hh => absurd (h2.mpr (.inr ⟨k, b, x, .inr (.inl ⟨t, hh⟩)⟩)) Bool.false_ne_true,
      fun c hh => absurd (h2.mpr (.inr ⟨k, b, x, .inr (.inr ⟨c, hh⟩)⟩)) Bool.false_ne_true⟩
  have key : s'.handles = false ∧ ∀ k b x, (s'.stubs k).pc ≠ .asking b x ∧
      (∀ t, (s'.stubs k).pc ≠ .asked b x t) ∧ ∀ c, (s'.stubs k).pc ≠ .share b x c := by
    clear h2 hf hf'
    cases m <;> first
      | exact ⟨h5, h6⟩
      | (refine ⟨?_, fun k b x => ?_⟩ <;> grind [upd, stubAt_apply])
  refine Bool.eq_false_iff.mpr fun hh => ?_
  rcases (epStrong_iff hf').mp hh with hh | ⟨k, b, x, hh⟩
  · rw [key.1] at hh; cases hh
  · obtain ⟨k1, k2, k3⟩ := key.2 k b x
    rcases hh with hh | ⟨t, hh⟩ | ⟨c, hh⟩
    · exact k1 hh
    · exact k2 t hh
    · exact k3 c hh

/-- **C97.** `upgrade` answers at once. It gives an `Endpoint` exactly if the user still has one, or a
call of `send_to` is making a connection. -/
theorem C97_iff (e : Exec (step dg) init tr s) :
    (∃ s', step dg s .upgrade = some (s', .upgraded true)) ∧
        (held tr = true ∨ ∃ k, Connecting (s.stubs k).pc) ∨
      (∃ s', step dg s .upgrade = some (s', .upgraded false)) ∧
        held tr = false ∧ ∀ k, ¬ Connecting (s.stubs k).pc := by
  have h := epStrong_iff (good_hist e).1.fresh
  rw [held_eq e] at h
  cases hs : s.epStrong with
  | true => exact .inl ⟨⟨_, if_pos hs⟩, h.mp hs⟩
  | false =>
    refine .inr ⟨⟨s, by simp [step, hs]⟩, ?_, fun k hk => ?_⟩
    · cases hh : held tr with
      | false => rfl
      | true => rw [h.mpr (.inl hh)] at hs; cases hs
    · rw [h.mpr (.inr ⟨k, hk⟩)] at hs; cases hs

/-- **C97.** The `Endpoint` that it gives works: the endpoint has not ended, and `serve` and `proxy` hand
over their request as soon as fewer than eight are waiting. -/
theorem C97_works (e : Exec (step dg) init tr s) (h : step dg s .upgrade = some (s', .upgraded true)) :
    (∀ ok, (.ep ok, .ended) ∉ tr) ∧ (s.cmds.length < 8 → ∀ id a,
      (∃ s'', step dg s' (.serve id) = some (s'', .none)) ∧
      ∃ s'', step dg s' (.proxy id a) = some (s'', .none)) := by
  have e' : Exec (step dg) init (tr ++ [(.upgrade, .upgraded true)]) s' := e.snoc h
  have hh : s'.handles = true := by
    rw [held_eq e', held, List.foldl_append]
    rfl
  have hp : s'.pc ≠ .stopped := fun hp => by
    rw [((asks_over e').2 hp).2.1] at hh
    cases hh
  have hc : s'.cmds = s.cmds := by
    simp only [step] at h
    split at h <;> cases h
    rfl
  refine ⟨fun ok hm => hp ((ended_iff e').mpr ⟨ok, List.mem_append_left _ hm⟩), fun hl id a => ?_⟩
  have : s'.cmds.length < epCap := hc ▸ hl
  exact ⟨⟨_, if_pos ⟨hh, this⟩⟩, ⟨_, if_pos ⟨hh, this⟩⟩⟩

/-- **C97.** When the endpoint has ended, or `upgrade` has given `None` once, it gives `None` forever. -/
theorem C97_final {tr' : Spec.Ep.Trace} {x : Action × Obs} (e : Exec (step dg) init (tr ++ x :: tr') s)
    (hx : (∃ ok, x = (.ep ok, .ended)) ∨ x = (.upgrade, .upgraded false)) :
    (∀ o, (.upgrade, o) ∈ tr' → o = .upgraded false) ∧
      step dg s .upgrade = some (s, .upgraded false) := by
  obtain ⟨s₁, e₁, e₂⟩ := Exec.split (t := tr ++ [x]) (u := tr') (by rw [List.append_assoc]; exact e)
  have h₁ : s₁.epStrong = false := by
    obtain ⟨s₀, e₀, h₀⟩ := e₁.last
    rcases hx with ⟨ok, rfl⟩ | rfl
    · generalize ho : Obs.ended = o at h₀
      refine Move.unheld (good_hist e₀).1.fresh (good_hist e₁).1.fresh ?_ (move_of_step h₀)
      cases move_of_step h₀ <;> first | assumption | cases ho
    · refine Move.unheld (good_hist e₀).1.fresh (good_hist e₁).1.fresh ?_ (move_of_step h₀)
      generalize ho : Obs.upgraded false = o at h₀
      cases move_of_step h₀ <;> first | assumption | cases ho
  clear e hx
  induction e₂ with
  | nil => exact ⟨by simp, by simp [step, h₁]⟩
  | @snoc t s s' a o e' hs ih =>
    have e'' := e₁.append e'
    obtain ⟨k1, k2⟩ := ih
    have h₂ : s.epStrong = false := by
      cases hh : s.epStrong with
      | false => rfl
      | true => simp [step, hh] at k2
    have h₃ := Move.unheld (good_hist e'').1.fresh (good_hist (e''.snoc hs)).1.fresh h₂ (move_of_step hs)
    refine ⟨fun o' ho => ?_, by simp [step, h₃]⟩
    rcases List.mem_append.mp ho with ho | ho
    · exact k1 o' ho
    · rw [List.mem_singleton] at ho
      cases ho
      rw [k2] at hs
      cases hs
      rfl

end

/-- **C97.** A weak handle does not keep an endpoint alive: on a UDP socket, when there is nothing left to
do, an endpoint whose weak handles give `None` has ended. -/
theorem C97_ends {tr : Spec.Node.Trace} {s : Node.State} (e : Exec Node.step Node.init tr s)
    (hr : Node.Resting s) (hm : Node.Room s) (h : Ep.step true s.ep .upgrade = some (s.ep, .upgraded false)) :
    ∃ ok, (.ep ok, .ended) ∈ Node.app tr := by
  have e1 := (Node.parts e).1
  have hg := (good_hist e1).1
  refine (ended_iff e1).mp (((quiet e hr hm).pc hg.fresh hg.readers).resolve_right fun hq => ?_)
  simp [step, hq.2.2] at h

/-- The `Endpoint` is dropped while `send_to` waits for a connection: a weak handle gives an `Endpoint`,
which is used to serve another interface. -/
example : ∃ tr s s', Exec (step true) init tr s ∧ held tr = false ∧ Connecting (s.stubs 0).pc ∧
    step true s .upgrade = some (s', .upgraded true) ∧ s.cmds.length < 8 := by
  obtain ⟨tr, s, e, h⟩ := exec_by (step := step true) (s := init)
    [.serve ⟨1, 1⟩, .ep true, .ep true, .ep true, .ep true, .ep true, .lisCmd 0, .stubSend 0 8 msgA,
      .stubStep 0, .stubStep 0, .close]
    (fun tr s => decide (held tr = false ∧ (s.stubs 0).pc = .asked 8 msgA 0 ∧ s.epStrong = true ∧
      s.cmds.length < 8)) (by decide +kernel)
  obtain ⟨h1, h2, h3, h4⟩ := of_decide_eq_true h
  exact ⟨tr, s, _, e, h1, ⟨8, msgA, .inr (.inl ⟨0, h2⟩)⟩, if_pos h3, h4⟩

/-- The same, then the endpoint ends after the `Endpoint` was dropped again. -/
example : ∃ tr s, Exec (step true) init (tr ++ [(.ep true, .ended)]) s := by
  obtain ⟨tr, s, e, h⟩ := exec_by (step := step true) (s := init)
    [.serve ⟨1, 1⟩, .ep true, .ep true, .ep true, .ep true, .ep true, .lisCmd 0, .stubSend 0 8 msgA,
      .stubStep 0, .stubStep 0, .close, .upgrade, .ep true, .ep true, .stubStep 0, .close]
    (fun _ s => decide (s.pc = .idle ∧ s.cmds = [] ∧ s.epStrong = false)) (by decide +kernel)
  obtain ⟨h1, h2, h3⟩ := of_decide_eq_true h
  exact ⟨tr, _, e.snoc (s' := { s with pc := .stopped }) (by simp [step, ep, epCmd, h1, h2, h3])⟩

/-- The `Endpoint` is dropped at once and the endpoint ends. -/
example : ∃ tr s, Exec Node.step Node.init tr s ∧ Node.Resting s ∧ Node.Room s ∧
    Ep.step true s.ep .upgrade = some (s.ep, .upgraded false) := by
  obtain ⟨tr, s, e, h⟩ := exec_by (step := Node.step) (s := Node.init)
    [.app .close, .app (.ep true)] (fun _ s => decide (s.ep.pc = .stopped ∧ s.ep.epStrong = false ∧
      s.ep.connCount = 0 ∧ s.ep.lisCount = 0 ∧ s.ep.stubCount = 0 ∧ s.ep.proxyCount = 0 ∧
      s.udp.pc = .idle))
    (by decide +kernel)
  obtain ⟨h1, h2, h3, h4, h5, h6, h7⟩ := of_decide_eq_true h
  have hg := (Ep.good_hist (Node.parts e).1).1
  refine ⟨tr, s, e, (Node.resting_iff s).mpr (Node.Idle.rests ⟨.inl h7, .inl h1, fun c hc => ?_,
    fun l hl => ?_, fun k hk => ?_⟩ hg), ⟨fun k hk => ?_, fun p hp => ?_⟩, by simp [step, h2]⟩
  · omega
  · omega
  · omega
  · have := Ep.stub_lt hg.fresh hk; omega
  · have := Ep.proxy_lt hg.fresh hp; omega

end Rsomeip
