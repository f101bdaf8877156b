import Verif.Lemmas.EpInv

/-! # Who owns the senders of a channel -/

namespace Rsomeip.Rt.Ep

open Someip (InterfaceId)

theorem Conn.holds_iff (c : Conn) (i : Nat) : c.holds i = true ↔
    (∃ id, (id, i) ∈ c.owned.entries) ∨ (∃ id, .take id i ∈ c.cmds) ∨
      ∃ m ms, c.pc = .sending i m ms := by
  obtain ⟨addr, alive, cmds, out, owned, pc⟩ := c
  simp only [Conn.holds, Bool.or_eq_true, List.any_eq_true, or_assoc]
  refine or_congr ?_ (or_congr ?_ ?_)
  · constructor
    · rintro ⟨⟨id, j⟩, h, hj⟩
      have := of_decide_eq_true hj
      dsimp only at this
      exact ⟨id, this ▸ h⟩
    · rintro ⟨id, h⟩
      exact ⟨_, h, by simp⟩
  · constructor
    · rintro ⟨x, h, hx⟩
      cases x with
      | message m => cases hx
      | take id j =>
        have := of_decide_eq_true hx
        exact ⟨id, this ▸ h⟩
    · rintro ⟨id, h⟩
      exact ⟨_, h, by simp⟩
  · cases pc <;> simp

theorem Lis.holds_iff (l : Lis) (i : Nat) : l.holds i = true ↔
    (∃ id, (id, i) ∈ l.owned.entries) ∨ ∃ id, (id, i) ∈ l.cmds := by
  simp only [Lis.holds, Bool.or_eq_true, List.any_eq_true]
  refine or_congr ?_ ?_ <;>
  · constructor
    · rintro ⟨⟨id, j⟩, h, hj⟩
      have := of_decide_eq_true hj
      dsimp only at this
      exact ⟨id, this ▸ h⟩
    · rintro ⟨id, h⟩
      exact ⟨_, h, by simp⟩

/-- Somebody owns a sender of channel `i`. -/
def Held (s : State) (i : Nat) : Prop :=
  s.pc.holds i = true ∨ (∃ c, (s.conns c).holds i = true) ∨ ∃ l, (s.liss l).holds i = true

theorem ifStrong_iff {s : State} (hf : Fresh s) (i : Nat) : s.ifStrong i = true ↔ Held s i := by
  simp only [State.ifStrong, Held, Bool.or_eq_true, List.any_eq_true, List.mem_range, or_assoc]
  refine or_congr .rfl (or_congr ⟨fun ⟨c, _, h⟩ => ⟨c, h⟩, fun ⟨c, h⟩ => ⟨c, ?_, h⟩⟩
    ⟨fun ⟨l, _, h⟩ => ⟨l, h⟩, fun ⟨l, h⟩ => ⟨l, ?_, h⟩⟩)
  · by_cases hc : c < s.connCount
    · exact hc
    · rw [hf.conns c (Nat.not_lt.mp hc)] at h
      exact absurd h (by simp [Conn.holds, Map.empty])
  · by_cases hl : l < s.lisCount
    · exact hl
    · rw [hf.liss l (Nat.not_lt.mp hl)] at h
      exact absurd h (by simp [Lis.holds, Map.empty])

theorem ifStrong_false {s : State} (hf : Fresh s) {i : Nat} (h : s.ifStrong i = false) :
    ¬ Held s i := by
  rw [← ifStrong_iff hf i, h]
  exact Bool.false_ne_true

theorem holds_serveTake (id : InterfaceId) (l i j : Nat) :
    (EpPc.serveTake id l j).holds i = true ↔ j = i := by simp [EpPc.holds]

theorem holds_proxyTake (id : InterfaceId) (a : Addr) (c i j : Nat) :
    (EpPc.proxyTake id a c j).holds i = true ↔ j = i := by simp [EpPc.holds]

section
variable {dg : Bool} {s s' : State} {a : Action} {o : Obs}

/-! ### Channels -/

/-- What a channel was made for never changes. -/
theorem Move.id (m : Move dg s a o s') {i : Nat} (hi : i < s.ifCount) :
    i < s'.ifCount ∧ (s'.ifaces i).id = (s.ifaces i).id := by
  cases m <;> first | exact ⟨hi, rfl⟩ | grind [upd, Iface.drop]

/-- A receiver that is gone does not come back. -/
theorem Move.rx (m : Move dg s a o s') {i : Nat} (hi : i < s.ifCount)
    (h : (s'.ifaces i).rx = true) : (s.ifaces i).rx = true := by
  cases m <;> first | exact h | grind [upd, Iface.drop]

theorem Move.held_pc (m : Move dg s a o s') {i : Nat} (h : s'.pc.holds i = true) :
    Held s i ∨ i = s.ifCount ∧ s'.ifCount = s.ifCount + 1 := by
  cases m <;> first | exact .inl (.inl h) | grind [EpPc.holds]

theorem Move.held_liss (m : Move dg s a o s') {i l : Nat}
    (h : (s'.liss l).holds i = true) : Held s i := by
  have hp := holds_serveTake
  cases m <;> first | exact .inr (.inr ⟨l, h⟩) |
    grind [Held, upd, Lis.holds_iff, newLis, deadLis, Map.empty, Map.mem_insert]

theorem Move.held_conns (hf : Fresh s) (m : Move dg s a o s') {i c : Nat}
    (h : (s'.conns c).holds i = true) : Held s i := by
  have hp := holds_proxyTake
  have hs := ifStrong_iff hf
  cases m <;> first | exact .inr (.inl ⟨c, h⟩) |
    grind [Held, upd, Conn.holds_iff, newConn, Conn.ended, Map.empty, Map.mem_insert]

/-- A channel without senders never gets one again. -/
theorem Move.held_new (hf : Fresh s) (m : Move dg s a o s') {i : Nat} (h : Held s' i) :
    Held s i ∨ i = s.ifCount ∧ s'.ifCount = s.ifCount + 1 := by
  rcases h with h | ⟨c, h⟩ | ⟨l, h⟩
  · exact m.held_pc h
  · exact .inl (m.held_conns hf h)
  · exact .inl (m.held_liss h)

theorem Move.held (hf : Fresh s) (m : Move dg s a o s') {i : Nat} (hi : i < s.ifCount)
    (h : Held s' i) : Held s i :=
  (m.held_new hf h).resolve_right fun h => absurd h.1 (Nat.ne_of_lt hi)

/-! ### Identities and locks -/

theorem ifLocked_false {s : State} (hf : Fresh s) {id : InterfaceId} (h : s.ifLocked id = false)
    {c i : Nat} {m : Msg} {ms : List Msg} (hc : (s.conns c).pc = .sending i m ms) :
    InterfaceId.of m ≠ id := by
  intro hid
  have hlt : c < s.connCount := by
    apply Decidable.byContradiction
    intro hn
    rw [hf.conns c (Nat.not_lt.mp hn)] at hc
    cases hc
  simp only [State.ifLocked, List.any_eq_false, List.mem_range] at h
  have := h c hlt
  rw [hc] at this
  exact this (decide_eq_true (by rw [hid]))

/-- Channels are known by what they were made for, and a locked entry stays as it is. -/
structure Ids (s : State) : Prop where
  held : ∀ i, Held s i → i < s.ifCount
  shared : ∀ id i, s.shared.get id = some i → i < s.ifCount ∧ (s.ifaces i).id = id
  sending : ∀ c i m ms, (s.conns c).pc = .sending i m ms →
    s.shared.get (InterfaceId.of m) = some i
  lock : ∀ c c' i i' m m' ms ms', (s.conns c).pc = .sending i m ms →
    (s.conns c').pc = .sending i' m' ms' → InterfaceId.of m = InterfaceId.of m' → c = c'
  serveTake : ∀ id l i, s.pc = .serveTake id l i → (s.ifaces i).id = id
  proxyTake : ∀ id a c i, s.pc = .proxyTake id a c i → (s.ifaces i).id = id

theorem Ids.init : Ids init := by
  constructor <;> simp [Held, Ep.init, Conn.holds, Lis.holds, EpPc.holds, Map.empty, Map.get, Map.find]

theorem Move.ifCount (m : Move dg s a o s') : s.ifCount ≤ s'.ifCount := by
  cases m <;> simp

theorem Ids.step_held (h : Ids s) (hf : Fresh s) (m : Move dg s a o s') (i : Nat)
    (hi : Held s' i) : i < s'.ifCount := by
  have := m.ifCount
  rcases m.held_new hf hi with h1 | ⟨h1, h2⟩
  · have := h.held i h1
    omega
  · omega

theorem Ids.step_shared (h : Ids s) (m : Move dg s a o s') (id : InterfaceId) (i : Nat)
    (hi : s'.shared.get id = some i) : i < s'.ifCount ∧ (s'.ifaces i).id = id := by
  have h1 := h.shared id i
  have h2 := @Move.id dg s s' a o m i
  clear h
  cases m <;> first | exact ⟨(h2 (h1 hi).1).1, (h2 (h1 hi).1).2.trans (h1 hi).2⟩ |
    grind [upd, Map.get_insert, Map.get_remove]

theorem Ids.step_sending (h : Ids s) (hf : Fresh s) (m : Move dg s a o s') (c i : Nat) (x : Msg)
    (ms : List Msg) (hi : (s'.conns c).pc = .sending i x ms) :
    s'.shared.get (InterfaceId.of x) = some i := by
  have h1 := h.sending
  have h3 := h.lock
  have h2 := @ifLocked_false s hf
  clear h
  cases m <;> first | exact h1 c i x ms hi |
    grind [upd, Map.get_insert, Map.get_remove, newConn, Conn.ended]

theorem Ids.step_lock (h : Ids s) (hf : Fresh s) (m : Move dg s a o s') (c c' i i' : Nat)
    (x x' : Msg) (ms ms' : List Msg) (hi : (s'.conns c).pc = .sending i x ms)
    (hi' : (s'.conns c').pc = .sending i' x' ms') (he : InterfaceId.of x = InterfaceId.of x') :
    c = c' := by
  have h1 := h.lock
  have h2 := @ifLocked_false s hf
  clear h
  cases m <;> first | exact h1 c c' i i' x x' ms ms' hi hi' he |
    grind [upd, newConn, Conn.ended]

theorem Ids.step_serveTake (h : Ids s) (m : Move dg s a o s') (id : InterfaceId) (l i : Nat)
    (hi : s'.pc = .serveTake id l i) : (s'.ifaces i).id = id := by
  have h1 := h.serveTake id l i
  have h2 := @Move.id dg s s' a o m i
  have h3 := h.held i
  clear h
  cases m <;> first | exact (h2 (h3 (.inl (by rw [hi]; simp [EpPc.holds])))).2.trans (h1 hi) |
    grind [upd]

theorem Ids.step_proxyTake (h : Ids s) (m : Move dg s a o s') (id : InterfaceId) (a : Addr)
    (c i : Nat) (hi : s'.pc = .proxyTake id a c i) : (s'.ifaces i).id = id := by
  have h1 := h.proxyTake id a c i
  have h2 := m.id (i := i)
  have h3 := h.held i
  clear h
  cases m <;> first | exact (h2 (h3 (.inl (by rw [hi]; simp [EpPc.holds])))).2.trans (h1 hi) |
    grind [upd]

theorem Ids.step (h : Ids s) (hf : Fresh s) (m : Move dg s a o s') : Ids s' :=
  ⟨h.step_held hf m, h.step_shared m, h.step_sending hf m, h.step_lock hf m, h.step_serveTake m,
    h.step_proxyTake m⟩

end

end Rsomeip.Rt.Ep
