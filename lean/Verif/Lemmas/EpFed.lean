import Verif.Lemmas.EpOwn

/-! # The senders of the channels of open handles -/

namespace Rsomeip.Rt.Ep

open Someip (InterfaceId)
open Spec Spec.Ep

/-- The channel the listener task will own for `id`, once it has done its commands. -/
def Lis.latest (l : Lis) (id : InterfaceId) : Option Nat :=
  l.cmds.foldl (fun r e => if e.1 = id then some e.2 else r) (l.owned.get id)

/-- The channel the connection task will own for `id`, once it has done its commands. -/
def Conn.latest (c : Conn) (id : InterfaceId) : Option Nat :=
  c.cmds.foldl (fun r e => match e with
    | .message _ => r
    | .take id' i => if id' = id then some i else r) (c.owned.get id)

theorem Lis.latest_holds {l : Lis} {id : InterfaceId} {i : Nat} (h : l.latest id = some i) :
    l.holds i = true := by
  rw [Lis.holds_iff]
  rw [Lis.latest] at h
  have : ∀ (q : List (InterfaceId × Nat)) (r : Option Nat),
      q.foldl (fun r e => if e.1 = id then some e.2 else r) r = some i →
      r = some i ∨ (id, i) ∈ q := by
    intro q
    induction q with
    | nil => exact fun r h => .inl h
    | cons e q ih =>
      intro r h
      rcases ih _ h with h | h
      · dsimp only at h
        by_cases he : e.1 = id
        · rw [if_pos he] at h
          cases h
          exact .inr (he ▸ List.mem_cons_self ..)
        · rw [if_neg he] at h
          exact .inl h
      · exact .inr (List.mem_cons_of_mem _ h)
  rcases this _ _ h with h | h
  · exact .inl ⟨id, Map.mem_of_get h⟩
  · exact .inr ⟨id, h⟩

theorem Conn.latest_holds {c : Conn} {id : InterfaceId} {i : Nat} (h : c.latest id = some i) :
    c.holds i = true := by
  rw [Conn.holds_iff]
  rw [Conn.latest] at h
  have : ∀ (q : List ConnCmd) (r : Option Nat),
      q.foldl (fun r e => match e with
        | .message _ => r
        | .take id' i => if id' = id then some i else r) r = some i →
      r = some i ∨ .take id i ∈ q := by
    intro q
    induction q with
    | nil => exact fun r h => .inl h
    | cons e q ih =>
      intro r h
      rcases ih _ h with h | h
      · cases e with
        | message m => exact .inl h
        | take id' j =>
          dsimp only at h
          by_cases he : id' = id
          · rw [if_pos he] at h
            cases h
            exact .inr (he ▸ List.mem_cons_self ..)
          · rw [if_neg he] at h
            exact .inl h
      · exact .inr (List.mem_cons_of_mem _ h)
  rcases this _ _ h with h | h
  · exact .inl ⟨id, Map.mem_of_get h⟩
  · exact .inr (.inl ⟨id, h⟩)

section
variable {dg : Bool} {s s' : State} {a : Action} {o : Obs}

/-- How the senders of a listener change. -/
theorem Move.lis_latest (m : Move dg s a o s') {l : Nat} (hl : l < s.lisCount)
    (ha : (s'.liss l).alive = true) (id : InterfaceId) :
    l < s'.lisCount ∧ (s.liss l).alive = true ∧
      ((s'.liss l).latest id = (s.liss l).latest id ∨
        ∃ i, s.pc = .serveTake id l i ∧ (s'.liss l).latest id = some i ∧
          o = .serving s.stubCount i id) := by
  cases m
  case serveTake ok id' l' i hpc ha' hq =>
    by_cases he : l = l'
    · subst he
      refine ⟨hl, ha', ?_⟩
      show Lis.latest (upd _ _ _ _) _ = _ ∨ _
      simp only [upd_same, Lis.latest, List.foldl_append, List.foldl_cons, List.foldl_nil]
      by_cases hid : id' = id
      · subst hid
        exact .inr ⟨i, hpc, if_pos rfl, rfl⟩
      · exact .inl (if_neg hid)
    · simp only [upd_ne _ _ he] at ha ⊢
      exact ⟨hl, ha, .inl trivial⟩
  case lisTake l' id' i q ha' hq =>
    by_cases he : l = l'
    · subst he
      refine ⟨hl, ha', .inl ?_⟩
      show Lis.latest (upd _ _ _ _) _ = _
      rw [upd_same, Lis.latest, Lis.latest, hq, List.foldl_cons]
      dsimp only
      rw [Map.get_insert]
    · simp only [upd_ne _ _ he] at ha ⊢
      exact ⟨hl, ha, .inl trivial⟩
  all_goals first
    | exact ⟨hl, ha, .inl rfl⟩
    | (have h0 := @Lis.latest; grind [upd, deadLis, Lis.latest])

/-- How the senders of a connection change. -/
theorem Move.conn_latest (m : Move dg s a o s') {c : Nat} (hc : c < s.connCount)
    (ha : (s'.conns c).alive = true) (id : InterfaceId) :
    c < s'.connCount ∧ (s.conns c).alive = true ∧
      ((s'.conns c).latest id = (s.conns c).latest id ∨
        ∃ i b, s.pc = .proxyTake id b c i ∧ (s'.conns c).latest id = some i ∧
          o = .proxying s.proxyCount i id b) := by
  cases m
  case proxyTake ok id' b c' i hpc ha' hq =>
    by_cases he : c = c'
    · subst he
      refine ⟨hc, ha', ?_⟩
      show Conn.latest (upd _ _ _ _) _ = _ ∨ _
      simp only [upd_same, Conn.latest, List.foldl_append, List.foldl_cons, List.foldl_nil]
      by_cases hid : id' = id
      · subst hid
        exact .inr ⟨i, b, hpc, if_pos rfl, rfl⟩
      · exact .inl (if_neg hid)
    · simp only [upd_ne _ _ he] at ha ⊢
      exact ⟨hc, ha, .inl trivial⟩
  case cmdTake c' id' i q ha' ho hq =>
    by_cases he : c = c'
    · subst he
      refine ⟨hc, ha', .inl ?_⟩
      show Conn.latest (upd _ _ _ _) _ = _
      rw [upd_same, Conn.latest, Conn.latest, hq, List.foldl_cons]
      dsimp only
      rw [Map.get_insert]
    · simp only [upd_ne _ _ he] at ha ⊢
      exact ⟨hc, ha, .inl trivial⟩
  all_goals first
    | exact ⟨hc, ha, .inl rfl⟩
    | grind [upd, Conn.ended, Conn.latest]

/-- As long as a handle is open, and the task that receives for it lasts, there is a sender for its
channel. -/
structure Fed (s : State) : Prop where
  stubs : ∀ k, (s.stubs k).alive = true → (s.stubs k).lis < s.lisCount ∧
    ((s.liss (s.stubs k).lis).alive = true →
      (s.liss (s.stubs k).lis).latest (s.ifaces (s.stubs k).iface).id = some (s.stubs k).iface)
  proxies : ∀ p, (s.proxies p).alive = true → (s.proxies p).conn < s.connCount ∧
    ((s.conns (s.proxies p).conn).alive = true →
      (s.conns (s.proxies p).conn).latest (s.ifaces (s.proxies p).iface).id =
        some (s.proxies p).iface)

theorem Fed.init : Fed init := by constructor <;> simp [Ep.init]

theorem Move.stub_alive (m : Move dg s a o s') {k : Nat} (h : (s'.stubs k).alive = true) :
    (s.stubs k).alive = true ∨ k = s.stubCount ∧
      ∃ id l i, s.pc = .serveTake id l i ∧ (s'.stubs k).iface = i ∧ (s'.stubs k).lis = l ∧
        (s.liss l).alive = true ∧ (s'.liss l).alive = true ∧ (s'.liss l).latest id = some i := by
  have h3 := answer_cases s
  have h4 := refuse_cases s
  cases m
  case serveTake ok id l i hpc ha hq =>
    by_cases hk : k = s.stubCount
    · subst hk
      exact .inr ⟨rfl, id, l, i, hpc, by simp [upd_same], by simp [upd_same], ha,
        by simp [upd_same, ha], by simp [upd_same, Lis.latest]⟩
    · simp only [upd_ne _ _ hk] at h
      exact .inl h
  all_goals first | exact .inl h | grind [upd, stubAt_apply]

theorem Move.proxy_alive (m : Move dg s a o s') {p : Nat} (h : (s'.proxies p).alive = true) :
    (s.proxies p).alive = true ∨ p = s.proxyCount ∧
      ∃ id b c i, s.pc = .proxyTake id b c i ∧ (s'.proxies p).iface = i ∧ (s'.proxies p).conn = c ∧
        (s.conns c).alive = true ∧ (s'.conns c).latest id = some i := by
  cases m
  case proxyTake ok id b c i hpc ha hq =>
    by_cases hk : p = s.proxyCount
    · subst hk
      exact .inr ⟨rfl, id, b, c, i, hpc, by simp [upd_same], by simp [upd_same], ha,
        by simp [upd_same, Conn.latest]⟩
    · simp only [upd_ne _ _ hk] at h
      exact .inl h
  all_goals first | exact .inl h | grind [upd]

/-- Two open channels are for different interfaces. -/
theorem Opens.unique (h : Opens s) {i j : Nat} (hi : Open s i) (hj : Open s j)
    (he : (s.ifaces i).id = (s.ifaces j).id) : i = j := by
  have h1 := h.shared i hi
  rw [he, h.shared j hj] at h1
  cases h1
  rfl

theorem Fed.step_stubs (h : Fed s) (hg : Good s) (hh : ∀ k, k < s.stubCount →
      (s.stubs k).iface < s.ifCount) (m : Move dg s a o s') (k : Nat)
    (hk : (s'.stubs k).alive = true) : (s'.stubs k).lis < s'.lisCount ∧
    ((s'.liss (s'.stubs k).lis).alive = true →
      (s'.liss (s'.stubs k).lis).latest (s'.ifaces (s'.stubs k).iface).id =
        some (s'.stubs k).iface) := by
  have hlis : s.lisCount ≤ s'.lisCount := by cases m <;> first | exact Nat.le_refl _ | simp
  rcases m.stub_alive hk with h1 | ⟨rfl, id, l, i, hpc, hi, hl, ha, _, ho⟩
  · have h2 := stub_lt hg.fresh h1
    obtain ⟨_, h3, h4⟩ := m.stub_keep h2
    obtain ⟨h5, h6⟩ := h.stubs k h1
    rw [h3, h4, (m.id (hh k h2)).2]
    refine ⟨Nat.lt_of_lt_of_le h5 hlis, fun ha => ?_⟩
    obtain ⟨_, h7, h8 | ⟨i, hpc, _⟩⟩ := m.lis_latest h5 ha (s.ifaces (s.stubs k).iface).id
    · rw [h8]
      exact h6 h7
    · exfalso
      have h8 : Open s (s.stubs k).iface := ⟨(hg.readers.rx (.stub k) _ ⟨h1, rfl⟩).2,
        .inr (.inr ⟨_, Lis.latest_holds (h6 h7)⟩)⟩
      have h9 : Reads s .task i := by simp [Reads, hpc, EpPc.holds]
      have h10 : Open s i := ⟨(hg.readers.rx _ _ h9).2, .inl h9⟩
      have h11 := hg.opens.unique h8 h10 (hg.ids.serveTake _ _ _ hpc).symm
      have h12 := hg.readers.one (.stub k) .task _ ⟨h1, rfl⟩ (h11 ▸ h9)
      cases h12
  · have h5 : l < s.lisCount := by
      apply Decidable.byContradiction
      intro hn
      rw [hg.fresh.liss l (Nat.not_lt.mp hn)] at ha
      cases ha
    have h6 : i < s.ifCount := hg.ids.held i (.inl (by simp [hpc, EpPc.holds]))
    rw [hi, hl, (m.id h6).2, hg.ids.serveTake _ _ _ hpc]
    refine ⟨Nat.lt_of_lt_of_le h5 hlis, fun _ => ho⟩

theorem Fed.step_proxies (h : Fed s) (hg : Good s) (hh : ∀ p, p < s.proxyCount →
      (s.proxies p).iface < s.ifCount) (m : Move dg s a o s') (p : Nat)
    (hk : (s'.proxies p).alive = true) : (s'.proxies p).conn < s'.connCount ∧
    ((s'.conns (s'.proxies p).conn).alive = true →
      (s'.conns (s'.proxies p).conn).latest (s'.ifaces (s'.proxies p).iface).id =
        some (s'.proxies p).iface) := by
  have hcc : s.connCount ≤ s'.connCount := by cases m <;> first | exact Nat.le_refl _ | simp
  rcases m.proxy_alive hk with h1 | ⟨rfl, id, b, c, i, hpc, hi, hl, ha, ho⟩
  · have h2 := proxy_lt hg.fresh h1
    obtain ⟨_, h3, h4⟩ := m.proxy_keep h2
    obtain ⟨h5, h6⟩ := h.proxies p h1
    rw [h3, h4, (m.id (hh p h2)).2]
    refine ⟨Nat.lt_of_lt_of_le h5 hcc, fun ha => ?_⟩
    obtain ⟨_, h7, h8 | ⟨i, b, hpc, _⟩⟩ := m.conn_latest h5 ha (s.ifaces (s.proxies p).iface).id
    · rw [h8]
      exact h6 h7
    · exfalso
      have h8 : Open s (s.proxies p).iface := ⟨(hg.readers.rx (.proxy p) _ ⟨h1, rfl⟩).2,
        .inr (.inl ⟨_, Conn.latest_holds (h6 h7)⟩)⟩
      have h9 : Reads s .task i := by simp [Reads, hpc, EpPc.holds]
      have h10 : Open s i := ⟨(hg.readers.rx _ _ h9).2, .inl h9⟩
      have h11 := hg.opens.unique h8 h10 (hg.ids.proxyTake _ _ _ _ hpc).symm
      have h12 := hg.readers.one (.proxy p) .task _ ⟨h1, rfl⟩ (h11 ▸ h9)
      cases h12
  · have h6 : i < s.ifCount := hg.ids.held i (.inl (by simp [hpc, EpPc.holds]))
    rw [hi, hl, (m.id h6).2, hg.ids.proxyTake _ _ _ _ hpc]
    exact ⟨Nat.lt_of_lt_of_le (alive_lt hg.fresh ha) hcc, fun _ => ho⟩

theorem fed {tr : Trace} (e : Exec (Ep.step dg) Ep.init tr s) : Fed s := by
  induction e with
  | nil => exact .init
  | snoc e hs ih =>
    obtain ⟨hg, hh⟩ := good_hist e
    exact ⟨ih.step_stubs hg (fun k hk => (hh.stubs k hk).1) (move_of_step hs),
      ih.step_proxies hg (fun k hk => (hh.proxies k hk).1) (move_of_step hs)⟩

/-- The channel of a stub is open while its listener lasts. -/
theorem Fed.open_stub (h : Fed s) (hg : Good s) {k : Nat} (hk : (s.stubs k).alive = true)
    (hl : (s.liss (s.stubs k).lis).alive = true) : Open s (s.stubs k).iface :=
  ⟨(hg.readers.rx (.stub k) _ ⟨hk, rfl⟩).2,
    .inr (.inr ⟨_, Lis.latest_holds ((h.stubs k hk).2 hl)⟩)⟩

/-- The channel of a proxy is open while its connection lasts. -/
theorem Fed.open_proxy (h : Fed s) (hg : Good s) {p : Nat} (hp : (s.proxies p).alive = true)
    (hc : (s.conns (s.proxies p).conn).alive = true) : Open s (s.proxies p).iface :=
  ⟨(hg.readers.rx (.proxy p) _ ⟨hp, rfl⟩).2,
    .inr (.inl ⟨_, Conn.latest_holds ((h.proxies p hp).2 hc)⟩)⟩

/-- A message is dropped only if there is no open channel for it. -/
theorem Move.not_open {m : Msg} {w : Drop} (hg : Good s) (hm : Move dg s a (.dropped m w) s')
    (i : Nat) (hi : (s.ifaces i).id = InterfaceId.of m) : ¬ Open s i := by
  have h1 := hg.opens.shared i
  have h2 := hg.ids.sending
  have h3 := @ifStrong_false s hg.fresh
  clear hg
  generalize hx : Obs.dropped m w = o at hm
  cases hm <;> first
    | (cases hx; done)
    | (split at hx <;> cases hx)
    | (cases hx; grind [Open])

end

end Rsomeip.Rt.Ep
