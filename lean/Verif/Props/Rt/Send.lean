import Verif.Lemmas.EpMove
import Verif.Props.Rt.Endpoint

/-! # C68, C73 and C74: how an endpoint sends messages -/

namespace Rsomeip

open Rt Rt.Ep Spec Spec.Ep
open Someip (InterfaceId)

/-! ### C68 -/

/-- **C68.** The endpoint opens a connection to an address only if, at some point since the request
for it was made, no connection to the address was registered. -/
theorem C68_only_if_needed {dg : Bool} {tr : Trace} {s : State} {ok : Bool} {c : Nat} {a : Addr}
    (e : Exec (step dg) init (tr ++ [(.ep ok, .opened c a)]) s) :
    Unregistered dg tr a ∧
      ((∃ k m, (.stubSend k a m, .none) ∈ tr) ∨ ∃ id, (.proxy id a, .none) ∈ tr) := by
  obtain ⟨s₁, e₁, hs⟩ := e.last
  obtain ⟨-, -, h1, h2, -⟩ := unregistered e₁
  cases move_of_step hs with
  | proxyConnect id _ hpc => exact ⟨(h2 id a hpc).2, .inr ⟨id, (h2 id a hpc).1⟩⟩
  | connectOk k _ t hpc =>
    obtain ⟨⟨m, h⟩, h'⟩ := h1 k a t hpc
    exact ⟨h', .inl ⟨k, m, h⟩⟩

/-- Not in possession of a connection. -/
def Rt.Ep.StubPc.unconnected : StubPc → Prop
  | .share .. => False
  | .sending .. => False
  | _ => True

theorem connStrong_at {s : State} {k : Nat} {pc : StubPc} (h : (s.stubs k).pc.unconnected)
    (h' : pc.unconnected) (c : Nat) :
    State.connStrong { s with stubs := s.stubAt k pc } c = s.connStrong c := by
  simp only [State.connStrong]
  congr 3
  funext j
  simp only [Stub.holdsConn, stubAt_apply]
  by_cases hj : j = k
  · subst hj
    simp only [if_pos]
    congr 1
    cases hp : (s.stubs j).pc <;> simp only [hp, StubPc.unconnected] at h <;>
      cases pc <;> simp_all [StubPc.unconnected]
  · simp only [if_neg hj]

theorem peerLocked_at {s : State} {k : Nat} {pc : StubPc} (h : (s.stubs k).pc.unconnected)
    (h' : pc.unconnected) (a : Addr) :
    State.peerLocked { s with stubs := s.stubAt k pc } a = s.peerLocked a := by
  simp only [State.peerLocked]
  congr 1
  funext j
  simp only [stubAt_apply]
  by_cases hj : j = k
  · subst hj
    simp only [if_pos]
    cases hp : (s.stubs j).pc <;> simp only [hp, StubPc.unconnected] at h <;>
      cases pc <;> simp_all [StubPc.unconnected]
  · simp only [if_neg hj]

theorem stubAt_self (s : State) (k : Nat) (pc : StubPc) :
    s.stubAt k pc k = { s.stubs k with pc := pc } := by rw [stubAt_apply, if_pos rfl]

/-- **C68.** If a connection is registered and open, `send_to` uses it: undisturbed, no connection is
opened, and the message is put into the queue of the registered one. The entry of the address must not be
in use and there must be room in the queue. -/
theorem C68_uses_registered {dg : Bool} {tr : Trace} {s : State} {k c : Nat} {a : Addr} (m : Msg)
    (e : Exec (step dg) init tr s) (ho : StubOpen k tr) (hi : inCall k tr = false) (hr : Registered s a c)
    (hl : s.peerLocked a = false) (hc : ConnOpen c tr) (hq : (s.conns c).cmds.length < connCap) :
    ∃ s', Exec (step dg) s [(.stubSend k a m, .none), (.stubStep k, .none), (.stubStep k, .none),
      (.stubStep k, .accepted c m)] s' := by
  have ha := (stub_open_iff e k).mpr ho
  have hw := (idle_iff e k).mpr hi
  replace hc := (conn_open_iff e c).mpr hc
  have f0 : (s.stubs k).pc.unconnected := by rw [hw]; trivial
  let s1 : State := { s with stubs := s.stubAt k (.check a m) }
  have w1 : (s1.stubs k).pc = .check a m := congrArg Stub.pc (stubAt_self ..)
  have f1 : (s1.stubs k).pc.unconnected := by rw [w1]; trivial
  have l1 : s1.peerLocked a = false := (peerLocked_at f0 (by trivial) a).trans hl
  have c1 : s1.connStrong c = true := (connStrong_at f0 (by trivial) c).trans hr.2
  let s2 : State := { s1 with stubs := s1.stubAt k (.enter a m) }
  have w2 : (s2.stubs k).pc = .enter a m := congrArg Stub.pc (stubAt_self ..)
  let s3 : State := { s2 with stubs := s2.stubAt k (.sending a m c) }
  have w3 : (s3.stubs k).pc = .sending a m c := congrArg Stub.pc (stubAt_self ..)
  exact ⟨_, .cons (step_of_move (.stubSend k a m ha hw)) <|
    .cons (step_of_move (s := s1) (.checkOk k a m c w1 l1 hr.1 c1)) <|
    .cons (step_of_move (s := s2) (.enterOk k a m c w2 ((peerLocked_at f1 (by trivial) a).trans l1) hr.1
      ((connStrong_at f1 (by trivial) c).trans c1))) <|
    .cons (step_of_move (s := s3) (.sendOk k a m c w3 hc hq)) .nil⟩

/-- **C68.** If the registered connection has ended, `send_to` fails with "not connected", and then
no connection to the address is registered. -/
theorem C68_dead {dg : Bool} {tr : Trace} {s : State} {k c : Nat} {a : Addr} (m : Msg)
    (e : Exec (step dg) init tr s) (ho : StubOpen k tr) (hi : inCall k tr = false) (hr : Registered s a c)
    (hl : s.peerLocked a = false) (hc : ConnOver c tr) :
    ∃ s', Exec (step dg) s [(.stubSend k a m, .none), (.stubStep k, .none), (.stubStep k, .none),
      (.stubStep k, .sendFailed .notConnected)] s' ∧ ∀ d, ¬ Registered s' a d := by
  have ha := (stub_open_iff e k).mpr ho
  have hw := (idle_iff e k).mpr hi
  replace hc := (dead_iff e c).mpr (.inr hc)
  have f0 : (s.stubs k).pc.unconnected := by rw [hw]; trivial
  let s1 : State := { s with stubs := s.stubAt k (.check a m) }
  have w1 : (s1.stubs k).pc = .check a m := congrArg Stub.pc (stubAt_self ..)
  have f1 : (s1.stubs k).pc.unconnected := by rw [w1]; trivial
  have l1 : s1.peerLocked a = false := (peerLocked_at f0 (by trivial) a).trans hl
  have c1 : s1.connStrong c = true := (connStrong_at f0 (by trivial) c).trans hr.2
  let s2 : State := { s1 with stubs := s1.stubAt k (.enter a m) }
  have w2 : (s2.stubs k).pc = .enter a m := congrArg Stub.pc (stubAt_self ..)
  let s3 : State := { s2 with stubs := s2.stubAt k (.sending a m c) }
  have w3 : (s3.stubs k).pc = .sending a m c := congrArg Stub.pc (stubAt_self ..)
  refine ⟨_, .cons (step_of_move (.stubSend k a m ha hw)) <|
    .cons (step_of_move (s := s1) (.checkOk k a m c w1 l1 hr.1 c1)) <|
    .cons (step_of_move (s := s2) (.enterOk k a m c w2 ((peerLocked_at f1 (by trivial) a).trans l1) hr.1
      ((connStrong_at f1 (by trivial) c).trans c1))) <|
    .cons (step_of_move (s := s3) (.sendDead k a m c w3 hc)) .nil, ?_⟩
  intro d hd
  have := hd.1
  rw [Map.get_remove, if_pos rfl] at this
  cases this

/-- **C68.** If no connection is registered, `send_to` has one opened and uses it: undisturbed, over
a datagram protocol, a new connection to the destination is opened, and the message is put into its
queue. The endpoint task must be waiting for commands. -/
theorem C68_connects {tr : Trace} {s : State} {k : Nat} {a : Addr} (m : Msg) (ok : Bool)
    (e : Exec (step true) init tr s) (ho : StubOpen k tr) (hi : inCall k tr = false)
    (hr : ∀ c, ¬ Registered s a c) (hl : s.peerLocked a = false) (hh : held tr = true)
    (hp : s.pc = .idle) (hq : s.cmds = []) :
    ∃ c s', Exec (step true) s [(.stubSend k a m, .none), (.stubStep k, .none), (.stubStep k, .none),
      (.ep ok, .none), (.ep true, .opened c a), (.stubStep k, .none), (.stubStep k, .none),
      (.stubStep k, .accepted c m)] s' ∧ Registered s' a c ∧ ∀ b, ¬ Shown tr (.opened c b) := by
  have ha := (stub_open_iff e k).mpr ho
  have hw := (idle_iff e k).mpr hi
  replace hh := (held_eq e).trans hh
  have hg := (good_hist e).1
  have f0 : (s.stubs k).pc.unconnected := by rw [hw]; trivial
  have r0 : ∀ c, s.peers.get a = some c → s.connStrong c = false := by
    intro c hc
    cases h : s.connStrong c with
    | false => rfl
    | true => exact absurd ⟨hc, h⟩ (hr c)
  have g1 := hg.step (.stubSend (dg := true) k a m ha hw)
  let s1 : State := { s with stubs := s.stubAt k (.check a m) }
  have w1 : (s1.stubs k).pc = .check a m := congrArg Stub.pc (stubAt_self ..)
  have f1 : (s1.stubs k).pc.unconnected := by rw [w1]; trivial
  have l1 : s1.peerLocked a = false := (peerLocked_at f0 (by trivial) a).trans hl
  have m1 : Move true s1 (.stubStep k) .none _ := .checkAsk k a m w1 l1
    (fun c hc => (connStrong_at f0 (by trivial) c).trans (r0 c hc))
    ((epStrong_iff g1.fresh).mpr (.inl hh))
  have g2 := g1.step m1
  let s2 : State := { s1 with stubs := s1.stubAt k (.asking a m) }
  have w2 : (s2.stubs k).pc = .asking a m := congrArg Stub.pc (stubAt_self ..)
  have f2 : (s2.stubs k).pc.unconnected := by rw [w2]; trivial
  have l2 : s2.peerLocked a = false := (peerLocked_at f1 (by trivial) a).trans l1
  have m2 : Move true s2 (.stubStep k) .none _ := .ask k a m w2 (by
    show s.cmds.length < _
    rw [hq]; decide)
  have g3 := g2.step m2
  let s3 : State :=
    { s2 with
      cmds := s2.cmds ++ [.connect k a s2.asks]
      asks := s2.asks + 1
      stubs := s2.stubAt k (.asked a m s2.asks) }
  have w3 : (s3.stubs k).pc = .asked a m s.asks := congrArg Stub.pc (stubAt_self ..)
  have q3 : s3.cmds = [.connect k a s.asks] := by
    show s.cmds ++ _ = _
    rw [hq]; rfl
  have m3 : Move true s3 (.ep ok) .none _ := .epConnect ok k a s.asks [] hp q3
  have g4 := g3.step m3
  let s4 : State := { s3 with cmds := [], pc := .connect k a s.asks }
  have m4 : Move true s4 (.ep true) (.opened s.connCount a) _ := .connectOk k a s.asks rfl rfl
  have g5 := g4.step m4
  let s5 : State :=
    { s4 with
      conns := upd s4.conns s4.connCount (newConn a)
      connCount := s4.connCount + 1
      stubs := answer s4 k s.asks s4.connCount
      pc := .idle }
  have a5 : s5.stubs = upd s4.stubs k { s4.stubs k with pc := .share a m s.connCount } := by
    show answer s4 k s.asks s4.connCount = _
    simp only [answer, show (s4.stubs k).pc = .asked a m s.asks from w3, if_true]
    rfl
  have w5 : (s5.stubs k).pc = .share a m s.connCount := by rw [a5, upd_same]
  have l5 : s5.peerLocked a = false := by
    apply not_peerLocked g5.fresh
    intro j b x c hj hb
    have hj : (s5.stubs j).pc = .sending b x c := hj
    by_cases hjk : j = k
    · subst hjk; rw [w5] at hj; cases hj
    · rw [a5, upd_ne _ _ hjk] at hj
      have : (s2.stubs j).pc = .sending b x c := by
        have h : s4.stubs j = s2.stubs j := by
          show s2.stubAt k _ j = _
          rw [stubAt_apply, if_neg hjk]
        rwa [h] at hj
      exact peerLocked_bucket g2.fresh l2 this hb
  have m5 : Move true s5 (.stubStep k) .none _ := .stubShare k a m s.connCount w5 l5
  have g6 := g5.step m5
  let s6 : State :=
    { s5 with
      peers := (s5.peers.insert a s.connCount).2
      stubs := upd s5.stubs k
        { s5.stubs k with
          conns := ((s5.stubs k).conns.insert a s.connCount).2, pc := .enter a m } }
  have w6 : (s6.stubs k).pc = .enter a m := by
    show Stub.pc (upd _ _ _ _) = _
    rw [upd_same]
  have f6 : (s6.stubs k).pc.unconnected := by rw [w6]; trivial
  have l6 : s6.peerLocked a = false := by
    apply not_peerLocked g6.fresh
    intro j b x c hj hb
    have hj : (s6.stubs j).pc = .sending b x c := hj
    by_cases hjk : j = k
    · subst hjk; rw [w6] at hj; cases hj
    · have : (s5.stubs j).pc = .sending b x c := by
        have h : s6.stubs j = s5.stubs j := upd_ne _ _ hjk
        rwa [h] at hj
      exact peerLocked_bucket g5.fresh l5 this hb
  have p6 : s6.peers.get a = some s.connCount := by
    show Map.get (Map.insert _ _ _).2 _ = _
    rw [Map.get_insert, if_pos rfl]
  have h6 : ((s6.stubs k).holdsConn s.connCount) = true := by
    rw [Stub.holdsConn_iff]
    refine .inl ⟨a, ?_⟩
    show _ ∈ (Stub.conns (upd _ _ _ _)).entries
    rw [upd_same]
    exact (Map.mem_insert ..).mpr (.inl rfl)
  have c6 : s6.connStrong s.connCount = true :=
    (connStrong_iff g6.fresh _).mpr (.inr (.inr (.inl ⟨k, h6⟩)))
  have m6 : Move true s6 (.stubStep k) .none _ := .enterOk k a m s.connCount w6 l6 p6 c6
  have g7 := g6.step m6
  let s7 : State := { s6 with stubs := s6.stubAt k (.sending a m s.connCount) }
  have w7 : (s7.stubs k).pc = .sending a m s.connCount := congrArg Stub.pc (stubAt_self ..)
  have n7 : s7.conns s.connCount = newConn a := upd_same ..
  have m7 : Move true s7 (.stubStep k) (.accepted s.connCount m) _ :=
    .sendOk k a m s.connCount w7 (by rw [n7]; rfl) (by rw [n7]; exact Nat.one_pos)
  have g8 := g7.step m7
  refine ⟨s.connCount, _, .cons (step_of_move (.stubSend k a m ha hw)) <| .cons (step_of_move m1) <|
    .cons (step_of_move m2) <| .cons (step_of_move m3) <| .cons (step_of_move m4) <|
    .cons (step_of_move m5) <| .cons (step_of_move m6) <| .cons (step_of_move m7) .nil, ⟨p6,
    (connStrong_iff g8.fresh _).mpr (.inr (.inr (.inl ⟨k, (Stub.holdsConn_iff _ _).mpr (.inl ?_)⟩)))⟩,
    fun b hb => Nat.lt_irrefl _ ((conn_shown e _).mpr ⟨b, hb⟩)⟩
  rcases (Stub.holdsConn_iff _ _).mp h6 with ⟨b, h⟩ | ⟨b, x, h⟩ | ⟨b, x, h⟩
  · refine ⟨b, ?_⟩
    show _ ∈ (s7.stubAt k .idle k).conns.entries
    rw [stubAt_self]
    show _ ∈ (s6.stubAt k _ k).conns.entries
    rw [stubAt_self]
    exact h
  · rw [w6] at h; cases h
  · rw [w6] at h; cases h

/-- **C68.** If no connection is registered, over a stream protocol `send_to` fails with "not
allowed": the peer has to connect. No connection is opened. The endpoint task must be waiting for
commands. -/
theorem C68_stream {tr : Trace} {s : State} {k : Nat} {a : Addr} (m : Msg) (ok ok' : Bool)
    (e : Exec (step false) init tr s) (ho : StubOpen k tr) (hi : inCall k tr = false)
    (hr : ∀ c, ¬ Registered s a c) (hl : s.peerLocked a = false) (hh : held tr = true)
    (hp : s.pc = .idle) (hq : s.cmds = []) :
    ∃ s', Exec (step false) s [(.stubSend k a m, .none), (.stubStep k, .none), (.stubStep k, .none),
      (.ep ok, .none), (.ep ok', .connectFailed k .notAllowed)] s' := by
  have ha := (stub_open_iff e k).mpr ho
  have hw := (idle_iff e k).mpr hi
  replace hh := (held_eq e).trans hh
  have hg := (good_hist e).1
  have f0 : (s.stubs k).pc.unconnected := by rw [hw]; trivial
  have r0 : ∀ c, s.peers.get a = some c → s.connStrong c = false := by
    intro c hc
    cases h : s.connStrong c with
    | false => rfl
    | true => exact absurd ⟨hc, h⟩ (hr c)
  have g1 := hg.step (.stubSend (dg := false) k a m ha hw)
  let s1 : State := { s with stubs := s.stubAt k (.check a m) }
  have w1 : (s1.stubs k).pc = .check a m := congrArg Stub.pc (stubAt_self ..)
  have l1 : s1.peerLocked a = false := (peerLocked_at f0 (by trivial) a).trans hl
  have m1 : Move false s1 (.stubStep k) .none _ := .checkAsk k a m w1 l1
    (fun c hc => (connStrong_at f0 (by trivial) c).trans (r0 c hc))
    ((epStrong_iff g1.fresh).mpr (.inl hh))
  let s2 : State := { s1 with stubs := s1.stubAt k (.asking a m) }
  have w2 : (s2.stubs k).pc = .asking a m := congrArg Stub.pc (stubAt_self ..)
  have m2 : Move false s2 (.stubStep k) .none _ := .ask k a m w2 (by
    show s.cmds.length < _
    rw [hq]; decide)
  let s3 : State :=
    { s2 with
      cmds := s2.cmds ++ [.connect k a s2.asks]
      asks := s2.asks + 1
      stubs := s2.stubAt k (.asked a m s2.asks) }
  have w3 : (s3.stubs k).pc = .asked a m s.asks := congrArg Stub.pc (stubAt_self ..)
  have q3 : s3.cmds = [.connect k a s.asks] := by
    show s.cmds ++ _ = _
    rw [hq]; rfl
  have m3 : Move false s3 (.ep ok) .none _ := .epConnect ok k a s.asks [] hp q3
  let s4 : State := { s3 with cmds := [], pc := .connect k a s.asks }
  have m4 : Move false s4 (.ep ok') (.connectFailed k .notAllowed) _ :=
    .connectRefused ok' k a s.asks rfl rfl ⟨a, m, w3⟩
  exact ⟨_, .cons (step_of_move (.stubSend k a m ha hw)) <| .cons (step_of_move m1) <|
    .cons (step_of_move m2) <| .cons (step_of_move m3) <| .cons (step_of_move m4) .nil⟩

/-- **C68.** If no connection is registered and the endpoint is gone, so that `upgrade` gives none,
`send_to` fails with "not connected". -/
theorem C68_no_endpoint {dg : Bool} {tr : Trace} {s : State} {k : Nat} {a : Addr} (m : Msg)
    (e : Exec (step dg) init (tr ++ [(.upgrade, .upgraded false)]) s) (ho : StubOpen k tr)
    (hi : inCall k tr = false) (hr : ∀ c, ¬ Registered s a c) (hl : s.peerLocked a = false) :
    ∃ s', Exec (step dg) s [(.stubSend k a m, .none), (.stubStep k, .sendFailed .notConnected)] s' := by
  obtain ⟨s₁, e₁, hs⟩ := e.last
  have ha := (stub_open_iff e₁ k).mpr ho
  have hw := (idle_iff e₁ k).mpr hi
  obtain ⟨rfl, hh⟩ : s = s₁ ∧ s₁.epStrong = false := by
    cases move_of_step hs <;> exact ⟨rfl, ‹_›⟩
  have f0 : (s.stubs k).pc.unconnected := by rw [hw]; trivial
  let s1 : State := { s with stubs := s.stubAt k (.check a m) }
  have w1 : (s1.stubs k).pc = .check a m := congrArg Stub.pc (stubAt_self ..)
  have l1 : s1.peerLocked a = false := (peerLocked_at f0 (by trivial) a).trans hl
  have e1 : s1.epStrong = false := by
    refine .trans ?_ hh
    simp only [State.epStrong]
    congr 2
    funext j
    simp only [show s1.stubs j = if j = k then { s.stubs k with pc := .check a m } else s.stubs j from
      stubAt_apply ..]
    by_cases hj : j = k
    · subst hj; simp [hw]
    · simp [hj]
  refine ⟨_, .cons (step_of_move (.stubSend k a m ha hw)) <|
    .cons (step_of_move (s := s1) (.checkFail k a m w1 l1 (fun c hc => ?_) e1)) .nil⟩
  have h2 := connStrong_at (s := s) (k := k) (pc := .check a m) f0 (by trivial) c
  cases h : s.connStrong c with
  | false => exact h2.trans h
  | true => exact absurd ⟨hc, h⟩ (hr c)

/-- A stub for service 1, and a peer at address 8 that has connected. -/
def Spec.Ep.stubActions : List Action :=
  [.serve ⟨1, 1⟩, .ep true, .ep true, .ep true, .ep true, .ep true, .lisCmd 0, .accept 0 8, .lisShare 0]

/-- A registered connection that works. -/
example : ∃ tr s, Exec (step true) init tr s ∧ StubOpen 0 tr ∧ inCall 0 tr = false ∧
    Registered s 8 0 ∧ s.peerLocked 8 = false ∧ ConnOpen 0 tr ∧
    (s.conns 0).cmds.length < connCap := by
  obtain ⟨tr, s, e, h⟩ := exec_reaches (step := step true) (s := init) stubActions
    (fun s => decide ((s.stubs 0).alive = true ∧ (s.stubs 0).pc = .idle ∧
      (s.peers.get 8 = some 0 ∧ s.connStrong 0 = true) ∧ s.peerLocked 8 = false ∧
      (s.conns 0).alive = true ∧ (s.conns 0).cmds.length < connCap)) (by decide +kernel)
  obtain ⟨h1, h2, h3, h4, h5, h6⟩ := of_decide_eq_true h
  exact ⟨tr, s, e, (stub_open_iff e 0).mp h1, (idle_iff e 0).mp h2, h3, h4, (conn_open_iff e 0).mp h5, h6⟩

/-- A registered connection that has ended. -/
example : ∃ tr s, Exec (step true) init tr s ∧ StubOpen 0 tr ∧ inCall 0 tr = false ∧
    Registered s 8 0 ∧ s.peerLocked 8 = false ∧ ConnOver 0 tr := by
  obtain ⟨tr, s, e, h⟩ := exec_by (step := step true) (s := init)
    (stubActions ++ [.packet 0 .closed])
    (fun tr s => decide ((s.stubs 0).alive = true ∧ inCall 0 tr = false ∧
      (s.peers.get 8 = some 0 ∧ s.connStrong 0 = true) ∧ s.peerLocked 8 = false ∧
      (.packet 0 .closed, .ended) ∈ tr)) (by decide +kernel)
  obtain ⟨h1, h2, h3, h4, h5⟩ := of_decide_eq_true h
  exact ⟨tr, s, e, (stub_open_iff e 0).mp h1, h2, h3, h4, .inl ⟨_, h5⟩⟩

/-- No registered connection: never, or not any more. -/
example (dg : Bool) : ∃ tr s, Exec (step dg) init tr s ∧ StubOpen 0 tr ∧
    inCall 0 tr = false ∧ (∀ c, ¬ Registered s 8 c) ∧ s.peerLocked 8 = false ∧ held tr = true ∧
    s.pc = .idle ∧ s.cmds = [] := by
  obtain ⟨tr, s, e, h⟩ := exec_reaches (step := step dg) (s := init)
    (stubActions ++ [.packet 0 .closed, .stubSend 0 8 msgA, .stubStep 0, .stubStep 0, .stubStep 0])
    (fun s => decide ((s.stubs 0).alive = true ∧ (s.stubs 0).pc = .idle ∧
      s.peers.get 8 = none ∧ s.peerLocked 8 = false ∧
      s.handles = true ∧ s.pc = .idle ∧ s.cmds = [])) (by revert dg; decide +kernel)
  obtain ⟨h1, h2, h3, h4, h5, h6⟩ := of_decide_eq_true h
  exact ⟨tr, s, e, (stub_open_iff e 0).mp h1, (idle_iff e 0).mp h2,
    fun c (hc : Registered s _ c) => by simp [hc.1] at h3, h4, (held_eq e).symm.trans h5, h6⟩

/-- No registered connection, and no endpoint. -/
example : ∃ tr s, Exec (step true) init (tr ++ [(.upgrade, .upgraded false)]) s ∧ StubOpen 0 tr ∧
    inCall 0 tr = false ∧ (∀ c, ¬ Registered s 9 c) ∧ s.peerLocked 9 = false := by
  obtain ⟨tr, s, e, h⟩ := exec_reaches (step := step true) (s := init)
    (stubActions ++ [.close, .ep true])
    (fun s => decide ((s.stubs 0).alive = true ∧ (s.stubs 0).pc = .idle ∧
      s.peers.get 9 = none ∧ s.peerLocked 9 = false ∧ s.epStrong = false)) (by decide +kernel)
  obtain ⟨h1, h2, h3, h4, h5⟩ := of_decide_eq_true h
  exact ⟨tr, s, e.snoc (by simp [step, h5]), (stub_open_iff e 0).mp h1, (idle_iff e 0).mp h2,
    fun c (hc : Registered s _ c) => by simp [hc.1] at h3, h4⟩

/-! ### C73 -/

/-- **C73.** When `send_to` of a stub returns `Ok`, the message given to it is in the queue of a
connection to the address given to it. -/
theorem C73_stub {dg : Bool} {tr : Trace} {s : State} {k c : Nat} {m : Msg}
    (e : Exec (step dg) init (tr ++ [(.stubStep k, .accepted c m)]) s) :
    ∃ a, lastCall k tr = some (a, m) ∧ Shown tr (.opened c a) := by
  obtain ⟨s₁, e₁, hs⟩ := e.last
  cases move_of_step hs with
  | sendOk _ a _ _ hw =>
    obtain ⟨h1, h2⟩ := (peers e₁).sending k a m c hw
    refine ⟨a, in_call e₁ k (a, m) (by rw [hw]; rfl), ?_⟩
    have := (good_hist e₁).2.conns c h1
    rwa [h2] at this

/-- **C73.** When `send` of a proxy returns `Ok`, the message given to it is in the queue of a
connection to the proxy's remote. -/
theorem C73_proxy {dg : Bool} {tr : Trace} {s : State} {p c : Nat} {m m' : Msg}
    (e : Exec (step dg) init (tr ++ [(.proxySend p m, .accepted c m')]) s) :
    m' = m ∧ ∃ i id a, Shown tr (.proxying p i id a) ∧ Shown tr (.opened c a) := by
  obtain ⟨s₁, e₁, hs⟩ := e.last
  cases move_of_step hs with
  | proxySend _ _ ha =>
    have hg := good_hist e₁
    have hp := proxy_lt hg.1.fresh ha
    obtain ⟨h1, h2⟩ := (peers e₁).proxies p hp
    refine ⟨rfl, _, _, _, (hg.2.proxies p hp).2, ?_⟩
    have := hg.2.conns _ h1
    rwa [h2] at this

/-- **C73.** Every accepted message was given to a stub or proxy: nothing is invented. -/
theorem C73_asked {dg : Bool} {tr : Trace} {s : State} {x : Action} {c : Nat} {m : Msg}
    (e : Exec (step dg) init (tr ++ [(x, .accepted c m)]) s) :
    (∃ k, x = .stubStep k) ∨ ∃ p, x = .proxySend p m := by
  obtain ⟨s₁, e₁, hs⟩ := e.last
  have hm := move_of_step hs
  generalize hx : Obs.accepted c m = o at hm
  cases hm <;> first | (cases hx; done) | (split at hx <;> cases hx) | cases hx
  · exact .inl ⟨_, rfl⟩
  · exact .inr ⟨_, rfl⟩

/-- A stub answers, and a proxy sends. -/
def Spec.Ep.sendTrace : Trace :=
  [(.serve ⟨1, 1⟩, .none), (.ep true, .none), (.ep true, .none), (.ep true, .none),
    (.ep true, .none), (.ep true, .serving 0 0 ⟨1, 1⟩), (.lisCmd 0, .none),
    (.accept 0 8, .opened 0 8), (.lisShare 0, .none), (.proxy ⟨2, 1⟩ 7, .none), (.ep true, .none),
    (.ep true, .none), (.ep true, .none), (.ep true, .opened 1 7), (.ep true, .none),
    (.ep true, .proxying 0 1 ⟨2, 1⟩ 7), (.connCmd 1, .none),
    (.stubSend 0 8 msgA, .none), (.stubStep 0, .none), (.stubStep 0, .none),
    (.stubStep 0, .accepted 0 msgA), (.proxySend 0 msgB, .accepted 1 msgB), (.connCmd 0, .none),
    (.connCmd 1, .none), (.proxySend 0 msgB', .accepted 1 msgB'), (.sent 1 true, .wire (frame msgB) true),
    (.sent 0 true, .wire (frame msgA) true), (.connCmd 1, .none),
    (.sent 1 false, .wire (frame msgB') false)]

theorem sendTrace_exec : ∃ s, Exec (step true) init sendTrace s := by
  have h : (perform (step true) init (sendTrace.map Prod.fst)).map
      (fun x => x.1.map Prod.snd) = some (sendTrace.map Prod.snd) := by decide +kernel
  obtain ⟨s, e⟩ := exec_of_shown h
  exact ⟨s, e⟩

/-! ### C74 -/

/-- **C74.** What the socket of a connection was given are the first ones of the messages accepted
for the connection: in order, each once, nothing else. -/
theorem C74_order {dg : Bool} {tr : Trace} {s : State} (e : Exec (step dg) init tr s) (c : Nat) :
    onWire c tr <+: (accepted c tr).map wireForm := (wire e).prefix c

/-- **C74.** Nothing is lost while the connection lasts: a connection whose task ends because nobody
has a handle has given all accepted messages to the socket. -/
theorem C74_flushed {dg : Bool} {tr : Trace} {s : State} {c : Nat}
    (e : Exec (step dg) init (tr ++ [(.connCmd c, .ended)]) s) :
    onWire c tr = (accepted c tr).map wireForm := by
  obtain ⟨s₁, e₁, hs⟩ := e.last
  cases move_of_step hs with
  | cmdPanic _ m q _ _ _ hb => rw [outgoing_eq] at hb; cases hb
  | cmdEnd _ ha ho hq =>
    have := (wire e₁).alive c ha
    rwa [Conn.todo, ho, hq, show messages [] = [] from rfl, List.map_nil, Option.toList_none,
      List.append_nil, List.append_nil] at this

/-- The queue of a connection is empty after some rounds of its task, if the socket sends. -/
theorem flush {dg : Bool} {c : Nat} (q : List ConnCmd) (s : State)
    (ha : (s.conns c).alive = true) (hq : (s.conns c).cmds = q) :
    ∃ (t : Trace) (s' : State), Exec (step dg) s t s' ∧
      (∀ x ∈ t, x.1 = .connCmd c ∨ x.1 = .sent c true) ∧ (s'.conns c).alive = true ∧
      (s'.conns c).cmds = [] ∧ (s'.conns c).out = none := by
  induction q generalizing s with
  | nil =>
    cases ho : (s.conns c).out with
    | none => exact ⟨[], s, .nil, by simp, ha, hq, ho⟩
    | some b =>
      refine ⟨_, _, .cons (step_of_move (.sentOk c b ho)) .nil, by simp, ?_⟩
      simp [upd_same, ha, hq]
  | cons x q ih =>
    have key : ∀ s : State, (s.conns c).alive = true → (s.conns c).cmds = x :: q →
        (s.conns c).out = none → ∃ (t : Trace) (s' : State), Exec (step dg) s t s' ∧
      (∀ x ∈ t, x.1 = .connCmd c ∨ x.1 = .sent c true) ∧ (s'.conns c).alive = true ∧
      (s'.conns c).cmds = [] ∧ (s'.conns c).out = none := by
      intro s ha hq ho
      cases x with
      | message m =>
        have hm : Move dg s (.connCmd c) .none _ := .cmdMessage c m q _ ha ho hq (outgoing_eq m)
        obtain ⟨t, s', e, h1, h2⟩ := ih
          { s with conns := upd s.conns c { s.conns c with cmds := q, out := some (wireForm m) } }
          (by simp [upd_same, ha]) (by simp [upd_same])
        refine ⟨_, s', .cons (step_of_move hm) e, ?_, h2⟩
        intro y hy
        rcases List.mem_cons.mp hy with rfl | hy
        · exact .inl rfl
        · exact h1 y hy
      | take id i =>
        have hm : Move dg s (.connCmd c) .none _ := .cmdTake c id i q ha ho hq
        obtain ⟨t, s', e, h1, h2⟩ := ih
          { s with
            conns := upd s.conns c
              { s.conns c with cmds := q, owned := ((s.conns c).owned.insert id i).2 } }
          (by simp [upd_same, ha]) (by simp [upd_same])
        refine ⟨_, s', .cons (step_of_move hm) e, ?_, h2⟩
        intro y hy
        rcases List.mem_cons.mp hy with rfl | hy
        · exact .inl rfl
        · exact h1 y hy
    cases ho : (s.conns c).out with
    | none => exact key s ha hq ho
    | some b =>
      have hm : Move dg s (.sent c true) _ _ := .sentOk c b ho
      obtain ⟨t, s', e, h1, h2⟩ := key
        { s with conns := upd s.conns c { s.conns c with out := none } }
        (by simp [upd_same, ha]) (by simp [upd_same, hq]) (by simp [upd_same])
      refine ⟨_, s', .cons (step_of_move hm) e, ?_, h2⟩
      intro y hy
      rcases List.mem_cons.mp hy with rfl | hy
      · exact .inr rfl
      · exact h1 y hy

/-- **C74.** As long as the connection's task runs and the socket sends what it is given, all
accepted messages get to the socket, without anybody doing anything about it. -/
theorem C74_all {dg : Bool} {tr : Trace} {s : State} (e : Exec (step dg) init tr s) {c : Nat}
    (ha : ConnOpen c tr) :
    ∃ (t : Trace) (s' : State), Exec (step dg) s t s' ∧
      (∀ x ∈ t, x.1 = .connCmd c ∨ x.1 = .sent c true) ∧
      onWire c (tr ++ t) = (accepted c tr).map wireForm := by
  rw [← conn_open_iff e] at ha
  obtain ⟨t, s', e', h1, h2, h3, h4⟩ := flush (dg := dg) _ s ha rfl
  refine ⟨t, s', e', h1, ?_⟩
  have := (wire (e.append e')).alive c h2
  rw [Conn.todo, h4, h3, show messages [] = [] from rfl, List.map_nil, Option.toList_none,
      List.append_nil, List.append_nil] at this
  rw [this]
  congr 1
  suffices h : accepted c t = [] by
    rw [show accepted c (tr ++ t) = accepted c tr ++ accepted c t from List.filterMap_append .., h,
      List.append_nil]
  rw [accepted, List.filterMap_eq_nil_iff]
  intro x hx
  obtain ⟨u, v, rfl⟩ := List.append_of_mem hx
  obtain ⟨y, o⟩ := x
  have hy := h1 (y, o) hx
  rw [← List.singleton_append, ← List.append_assoc] at e'
  obtain ⟨_, e1, _⟩ := e'.split
  obtain ⟨_, _, hs⟩ := e1.last
  rcases hy with rfl | rfl <;> cases move_of_step hs <;> rfl

/-- The messages of the proxy in the sample, in order; the second one fails to be sent. -/
example : onWire 1 sendTrace = [frame msgB, frame msgB'] ∧ accepted 1 sendTrace = [msgB, msgB'] := by
  decide +kernel

/-- A connection that ends because its only handle is dropped. -/
example : ∃ s, Exec (step true) init
    (([(.proxy ⟨2, 1⟩ 7, .none), (.ep true, .none), (.ep true, .none), (.ep true, .none),
    (.ep true, .opened 0 7), (.ep true, .none), (.ep true, .proxying 0 0 ⟨2, 1⟩ 7),
    (.connCmd 0, .none), (.proxySend 0 msgB, .accepted 0 msgB), (.dropProxy 0, .none),
    (.connCmd 0, .none), (.sent 0 true, .wire (frame msgB) true)] : Trace) ++
    [(.connCmd 0, .ended)]) s := by
  obtain ⟨s, e⟩ := exec_of_shown (step := step true) (s := init)
    (as := [.proxy ⟨2, 1⟩ 7, .ep true, .ep true, .ep true, .ep true, .ep true, .ep true, .connCmd 0,
      .proxySend 0 msgB, .dropProxy 0, .connCmd 0, .sent 0 true, .connCmd 0])
    (os := [.none, .none, .none, .none, .opened 0 7, .none, .proxying 0 0 ⟨2, 1⟩ 7, .none,
      .accepted 0 msgB, .none, .none, .wire (frame msgB) true, .ended]) (by decide +kernel)
  exact ⟨s, e⟩

end Rsomeip
