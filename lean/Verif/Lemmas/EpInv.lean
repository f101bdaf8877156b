import Verif.Lemmas.Endpoint

/-! # Invariants of the endpoint -/

namespace Rsomeip.Rt.Ep

open Someip (InterfaceId)

theorem stubAt_apply (s : State) (k : Nat) (pc : StubPc) (j : Nat) :
    s.stubAt k pc j = if j = k then { s.stubs k with pc := pc } else s.stubs j := rfl

theorem answer_cases (s : State) (k t c j : Nat) :
    (∃ b m, j = k ∧ (s.stubs k).pc = .asked b m t ∧
      answer s k t c j = ⟨(s.stubs k).iface, (s.stubs k).lis, (s.stubs k).alive, (s.stubs k).conns,
        .share b m c⟩) ∨
    answer s k t c j = s.stubs j := by
  cases hp : (s.stubs k).pc with
  | asked b m u =>
    simp only [answer, hp]
    by_cases hu : u = t
    · by_cases hj : j = k
      · subst hj hu
        exact .inl ⟨_, _, rfl, rfl, by rw [if_pos rfl, upd_same]⟩
      · exact .inr (by rw [if_pos hu, upd_ne _ _ hj])
    · exact .inr (by rw [if_neg hu])
  | _ => exact .inr (by simp only [answer, hp])

theorem refuse_cases (s : State) (k t j : Nat) :
    (∃ b m, j = k ∧ (s.stubs k).pc = .asked b m t ∧
      refuse s k t j = ⟨(s.stubs k).iface, (s.stubs k).lis, (s.stubs k).alive, (s.stubs k).conns,
        .idle⟩) ∨
    refuse s k t j = s.stubs j := by
  cases hp : (s.stubs k).pc with
  | asked b m u =>
    simp only [refuse, hp]
    by_cases hu : u = t
    · by_cases hj : j = k
      · subst hj hu
        exact .inl ⟨_, _, rfl, rfl, by rw [if_pos rfl, upd_same]⟩
      · exact .inr (by rw [if_pos hu, upd_ne _ _ hj])
    · exact .inr (by rw [if_neg hu])
  | _ => exact .inr (by simp only [refuse, hp])

/-! ### Things not made yet, and things that ended -/

/-- Only what was made differs from the beginning. -/
structure Fresh (s : State) : Prop where
  ifaces : ∀ i, s.ifCount ≤ i → s.ifaces i = ⟨⟨0, 0⟩, [], false⟩
  conns : ∀ c, s.connCount ≤ c → s.conns c = ⟨0, false, [], none, .empty, .wait⟩
  liss : ∀ l, s.lisCount ≤ l → s.liss l = ⟨false, [], .empty, .empty, .wait⟩
  stubs : ∀ k, s.stubCount ≤ k → s.stubs k = ⟨0, 0, false, .empty, .idle⟩
  proxies : ∀ p, s.proxyCount ≤ p → s.proxies p = ⟨0, 0, 0, false⟩

/-- Tasks that have ended and handles that were dropped own nothing. -/
structure Ended (s : State) : Prop where
  conns : ∀ c, (s.conns c).alive = false →
    (s.conns c).cmds = [] ∧ (s.conns c).out = none ∧ (s.conns c).owned = .empty ∧
      (s.conns c).pc = .wait
  liss : ∀ l, (s.liss l).alive = false →
    (s.liss l).cmds = [] ∧ (s.liss l).owned = .empty ∧ (s.liss l).conns = .empty ∧
      (s.liss l).pc = .wait
  stubs : ∀ k, (s.stubs k).alive = false → (s.stubs k).conns = .empty ∧ (s.stubs k).pc = .idle
  ifaces : ∀ i, (s.ifaces i).rx = false → (s.ifaces i).queue = []

theorem Ended.init : Ended init := by
  constructor <;> simp [Ep.init]

theorem Fresh.init : Fresh init := by
  constructor <;> simp [Ep.init]

section
variable {dg : Bool} {s s' : State} {a : Action} {o : Obs}

theorem Ended.step_conns (h : Ended s) (m : Move dg s a o s') (c : Nat) :
    (s'.conns c).alive = false →
    (s'.conns c).cmds = [] ∧ (s'.conns c).out = none ∧ (s'.conns c).owned = .empty ∧
      (s'.conns c).pc = .wait := by
  have h := h.conns
  cases m <;> first | exact h c | grind [upd, newConn, Conn.ended]

theorem Ended.step_liss (h : Ended s) (m : Move dg s a o s') (l : Nat) :
    (s'.liss l).alive = false →
    (s'.liss l).cmds = [] ∧ (s'.liss l).owned = .empty ∧ (s'.liss l).conns = .empty ∧
      (s'.liss l).pc = .wait := by
  have h := h.liss
  cases m <;> first | exact h l | grind [upd, newLis, deadLis]

theorem Ended.step_stubs (h : Ended s) (m : Move dg s a o s') (k : Nat) :
    (s'.stubs k).alive = false → (s'.stubs k).conns = .empty ∧ (s'.stubs k).pc = .idle := by
  have h := h.stubs
  have h5 := answer_cases s
  have h6 := refuse_cases s
  cases m <;> first | exact h k | grind [upd, stubAt_apply]

theorem Ended.step_ifaces (h : Ended s) (m : Move dg s a o s') (i : Nat) :
    (s'.ifaces i).rx = false → (s'.ifaces i).queue = [] := by
  have h := h.ifaces
  cases m <;> first | exact h i | grind [upd, Iface.drop]

theorem Ended.step (h : Ended s) (m : Move dg s a o s') : Ended s' :=
  ⟨h.step_conns m, h.step_liss m, h.step_stubs m, h.step_ifaces m⟩

theorem Fresh.step_conns (h : Fresh s) (he : Ended s) (m : Move dg s a o s') (c : Nat) :
    s'.connCount ≤ c → s'.conns c = ⟨0, false, [], none, .empty, .wait⟩ := by
  have h := h.conns
  have he := he.conns
  cases m <;> first | exact h c | grind [upd]

theorem Fresh.step_liss (h : Fresh s) (he : Ended s) (m : Move dg s a o s') (l : Nat) :
    s'.lisCount ≤ l → s'.liss l = ⟨false, [], .empty, .empty, .wait⟩ := by
  have h := h.liss
  have he := he.liss
  cases m <;> first | exact h l | grind [upd]

theorem Fresh.step_stubs (h : Fresh s) (he : Ended s) (m : Move dg s a o s') (k : Nat) :
    s'.stubCount ≤ k → s'.stubs k = ⟨0, 0, false, .empty, .idle⟩ := by
  have h := h.stubs
  have he := he.stubs
  have h5 := answer_cases s
  have h6 := refuse_cases s
  cases m <;> first | exact h k | grind [upd, stubAt_apply]

theorem Fresh.step_proxies (h : Fresh s) (m : Move dg s a o s') (p : Nat) :
    s'.proxyCount ≤ p → s'.proxies p = ⟨0, 0, 0, false⟩ := by
  have h := h.proxies
  cases m <;> first | exact h p | grind [upd]

theorem Fresh.step_ifaces (h : Fresh s) (m : Move dg s a o s') (i : Nat) :
    s'.ifCount ≤ i → s'.ifaces i = ⟨⟨0, 0⟩, [], false⟩ := by
  have h := h.ifaces
  cases m <;> first | exact h i | grind [upd, Iface.drop]

theorem Fresh.step (h : Fresh s) (he : Ended s) (m : Move dg s a o s') : Fresh s' :=
  ⟨h.step_ifaces m, h.step_conns he m, h.step_liss he m, h.step_stubs he m, h.step_proxies m⟩

end

end Rsomeip.Rt.Ep
