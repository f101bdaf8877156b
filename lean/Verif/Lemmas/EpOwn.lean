import Verif.Lemmas.EpConn
import Verif.Lemmas.EpMade

/-! # Who owns the senders of a channel -/

namespace Rsomeip.Rt.Ep

open Someip (InterfaceId)
open Spec Spec.Ep

/-- The connection task owns a sender of channel `i`, apart from the one in use by its receiver. -/
def Conn.owns (c : Conn) (i : Nat) : Prop :=
  (∃ id, (id, i) ∈ c.owned.entries) ∨ ∃ id, .take id i ∈ c.cmds

theorem Conn.holds_owns (c : Conn) (i : Nat) :
    c.holds i = true ↔ c.owns i ∨ ∃ m ms, c.pc = .sending i m ms := by
  rw [Conn.holds_iff, Conn.owns, or_assoc]

/-- Senders are owned by the listener of the stub and by the connection of the proxy. -/
structure Own (s : State) : Prop where
  liss : ∀ l i, (s.liss l).holds i = true →
    ∃ k, k < s.stubCount ∧ (s.stubs k).iface = i ∧ (s.stubs k).lis = l
  conns : ∀ c i, (s.conns c).owns i →
    ∃ p, p < s.proxyCount ∧ (s.proxies p).iface = i ∧ (s.proxies p).conn = c

section
variable {dg : Bool} {s s' : State} {a : Action} {o : Obs}

theorem Move.stub_keep (m : Move dg s a o s') {k : Nat} (hk : k < s.stubCount) :
    k < s'.stubCount ∧ (s'.stubs k).iface = (s.stubs k).iface ∧
      (s'.stubs k).lis = (s.stubs k).lis := by
  have h3 := answer_cases s
  have h4 := refuse_cases s
  cases m <;> first | exact ⟨hk, rfl, rfl⟩ | grind [upd, stubAt_apply]

theorem Move.proxy_keep (m : Move dg s a o s') {p : Nat} (hp : p < s.proxyCount) :
    p < s'.proxyCount ∧ (s'.proxies p).iface = (s.proxies p).iface ∧
      (s'.proxies p).conn = (s.proxies p).conn := by
  cases m <;> first | exact ⟨hp, rfl, rfl⟩ | grind [upd]

theorem Own.init : Own init := by
  constructor <;> simp [Ep.init, Lis.holds, Conn.owns, Map.empty]

theorem Own.step_liss (h : Own s) (m : Move dg s a o s') (l i : Nat)
    (hi : (s'.liss l).holds i = true) :
    ∃ k, k < s'.stubCount ∧ (s'.stubs k).iface = i ∧ (s'.stubs k).lis = l := by
  have h1 := h.liss l i
  by_cases hl : (s.liss l).holds i = true
  · obtain ⟨k, h2, h3, h4⟩ := h1 hl
    obtain ⟨h5, h6, h7⟩ := m.stub_keep h2
    exact ⟨k, h5, h6.trans h3, h7.trans h4⟩
  · rw [Lis.holds_iff] at hi hl
    clear h h1
    cases m
    case serveTake ok id l' j _ _ _ =>
      refine ⟨s.stubCount, Nat.lt_succ_self _, ?_⟩
      show Stub.iface (upd _ _ _ _) = i ∧ Stub.lis (upd _ _ _ _) = l
      rw [upd_same]
      grind [upd]
    all_goals first
      | exact absurd hi hl
      | grind [upd, newLis, deadLis, Map.empty, Map.mem_insert]

theorem Own.step_conns (h : Own s) (m : Move dg s a o s') (c i : Nat) (hi : (s'.conns c).owns i) :
    ∃ p, p < s'.proxyCount ∧ (s'.proxies p).iface = i ∧ (s'.proxies p).conn = c := by
  have h1 := h.conns c i
  by_cases hl : (s.conns c).owns i
  · obtain ⟨k, h2, h3, h4⟩ := h1 hl
    obtain ⟨h5, h6, h7⟩ := m.proxy_keep h2
    exact ⟨k, h5, h6.trans h3, h7.trans h4⟩
  · clear h h1
    rw [Conn.owns] at hi hl
    cases m
    case proxyTake ok id l' c' j _ _ _ =>
      refine ⟨s.proxyCount, Nat.lt_succ_self _, ?_⟩
      show Proxy.iface (upd _ _ _ _) = i ∧ Proxy.conn (upd _ _ _ _) = c
      rw [upd_same]
      grind [upd]
    all_goals first
      | exact absurd hi hl
      | grind [upd, newConn, Conn.ended, Map.empty, Map.mem_insert]

theorem own {tr : Trace} (e : Exec (Ep.step dg) Ep.init tr s) : Own s := by
  induction e with
  | nil => exact .init
  | snoc _ hs ih => exact ⟨ih.step_liss (move_of_step hs), ih.step_conns (move_of_step hs)⟩

/-- Every stub has its own channel. -/
structure Once (s : State) : Prop where
  stubs : ∀ k k', k < s.stubCount → k' < s.stubCount → (s.stubs k).iface = (s.stubs k').iface → k = k'
  pc : ∀ k i, k < s.stubCount → s.pc.holds i = true → (s.stubs k).iface ≠ i

theorem Once.step_stubs (h : Once s) (m : Move dg s a o s') (k k' : Nat) (hk : k < s'.stubCount)
    (hk' : k' < s'.stubCount) (he : (s'.stubs k).iface = (s'.stubs k').iface) : k = k' := by
  have h1 := h.stubs k k'
  have h2 := h.pc
  have h3 := answer_cases s
  have h4 := refuse_cases s
  have hp := holds_serveTake
  clear h
  cases m <;> first | exact h1 hk hk' he | grind [upd, stubAt_apply]

theorem Once.step_pc (h : Once s) {tr : Trace} (hh : Hist tr s) (m : Move dg s a o s') (k i : Nat)
    (hk : k < s'.stubCount) (hi : s'.pc.holds i = true) : (s'.stubs k).iface ≠ i := by
  have h1 := h.pc k i
  have h2 := fun k hk => (hh.stubs k hk).1
  have h3 := answer_cases s
  have h4 := refuse_cases s
  clear h hh
  cases m <;> first | exact h1 hk hi | grind [upd, stubAt_apply, EpPc.holds]

theorem once {tr : Trace} (e : Exec (Ep.step dg) Ep.init tr s) : Once s := by
  induction e with
  | nil => constructor <;> simp [Ep.init]
  | snoc e hs ih =>
    exact ⟨ih.step_stubs (move_of_step hs), ih.step_pc (good_hist e).2 (move_of_step hs)⟩

/-! ### Interfaces that can be offered -/

/-- Nobody owns a sender of the channel in the table, apart from the endpoint task and a connection
that is using it. -/
def Gone (id : InterfaceId) (s : State) : Prop :=
  ∀ i, s.shared.get id = some i → (∀ l, (s.liss l).holds i = false) ∧ ∀ c, ¬ (s.conns c).owns i

theorem Gone.step_liss {id : InterfaceId} (h : Gone id s) (hi : Ids s) (m : Move dg s a o s')
    (hc : ∀ i, ¬ Created i id o) (i l : Nat) (hg : s'.shared.get id = some i) :
    (s'.liss l).holds i = false := by
  have h1 := fun j hj => (h j hj).1 l
  have h2 := hi.shared id i
  have h3 := hi.serveTake
  have h4 : ∀ l x, (x, i) ∈ (s.liss l).owned.entries → i < s.ifCount := fun l x hl =>
    hi.held i (.inr (.inr ⟨l, (Lis.holds_iff ..).mpr (.inl ⟨x, hl⟩)⟩))
  have h7 : ∀ l x, (x, i) ∈ (s.liss l).cmds → i < s.ifCount := fun l x hl =>
    hi.held i (.inr (.inr ⟨l, (Lis.holds_iff ..).mpr (.inr ⟨x, hl⟩)⟩))
  have h5 : ∀ k j, o ≠ .serving k j id := fun k j h => hc j (.inl ⟨k, h⟩)
  have h6 : ∀ i, s.pc.holds i = true → i < s.ifCount := fun i h => hi.held i (.inl h)
  have hp := holds_serveTake
  clear h hi hc
  refine Bool.eq_false_iff.mpr fun hh => ?_
  simp only [← Bool.not_eq_true] at h1
  simp only [Lis.holds_iff] at hh h1
  cases m <;> first | exact h1 i hg hh |
    grind [upd, newLis, deadLis, Map.empty, Map.mem_insert, Map.get_insert, Map.get_remove]

theorem Gone.step_conns {id : InterfaceId} (h : Gone id s) (hi : Ids s) (m : Move dg s a o s')
    (hc : ∀ i, ¬ Created i id o) (i c : Nat) (hg : s'.shared.get id = some i) :
    ¬ (s'.conns c).owns i := by
  have h1 := fun j hj => (h j hj).2 c
  have h2 := hi.shared id i
  have h3 := hi.proxyTake
  have h4 : ∀ c x, (x, i) ∈ (s.conns c).owned.entries → i < s.ifCount := fun c x hl =>
    hi.held i (.inr (.inl ⟨c, ((Conn.holds_owns ..).mpr (.inl (.inl ⟨x, hl⟩)))⟩))
  have h7 : ∀ c x, .take x i ∈ (s.conns c).cmds → i < s.ifCount := fun c x hl =>
    hi.held i (.inr (.inl ⟨c, ((Conn.holds_owns ..).mpr (.inl (.inr ⟨x, hl⟩)))⟩))
  have h5 : ∀ k j b, o ≠ .proxying k j id b := fun k j b h => hc j (.inr ⟨k, b, h⟩)
  have h6 : ∀ i, s.pc.holds i = true → i < s.ifCount := fun i h => hi.held i (.inl h)
  have hp := holds_proxyTake
  clear h hi hc
  intro hh
  simp only [Conn.owns] at hh h1
  cases m <;> first | exact h1 i hg hh |
    grind [upd, newConn, Conn.ended, Map.empty, Map.mem_insert, Map.get_insert, Map.get_remove]

/-- After a message for the interface was dropped, nobody owns a sender. -/
theorem Move.gone {m : Msg} {w : Drop} (hm : Move dg s a (.dropped m w) s') :
    s'.shared.get (InterfaceId.of m) = none := by
  generalize hx : Obs.dropped m w = o at hm
  cases hm <;> first
    | (cases hx; done)
    | (split at hx <;> cases hx)
    | (cases hx; first | assumption | simp [Map.get_remove])

theorem not_known {id : InterfaceId} (hg : Good s) (h : Gone id s) (hl : s.ifLocked id = false)
    (hp : ∀ i, s.pc.holds i = false) : s.known id = false := by
  rw [State.known]
  cases hi : s.shared.get id with
  | none => rfl
  | some i =>
    refine Bool.eq_false_iff.mpr fun hs => ?_
    rcases (ifStrong_iff hg.fresh i).mp hs with h1 | ⟨c, h1⟩ | ⟨l, h1⟩
    · rw [hp i] at h1; cases h1
    · rcases (Conn.holds_owns _ _).mp h1 with h2 | ⟨m, ms, h2⟩
      · exact (h i hi).2 c h2
      · have h3 := hg.ids.sending c i m ms h2
        have h4 := (hg.ids.shared _ _ h3).2
        rw [(hg.ids.shared _ _ hi).2] at h4
        exact ifLocked_false hg.fresh hl h2 h4.symm
    · rw [(h i hi).1 l] at h1; cases h1

end

end Rsomeip.Rt.Ep
