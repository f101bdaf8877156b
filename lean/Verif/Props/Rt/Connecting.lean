import Verif.Props.Rt.LiveAnswer

/-! # C138: a remote that leaves a connection attempt unanswered holds up nobody else -/

namespace Rsomeip

open Rt Rt.Ep Spec Spec.Ep Someip

variable {dg : Bool}

/-- **C138.** If no task and no call is passed over, and no handle stays full for ever, then every call of `serve`
and `proxy` returns, unless the socket leaves the endpoint task without an answer for ever. -/
theorem C138_requests_partial (r : Run dg) (hf : r.FairTasks) (hr : r.Read) (hb : r.Settles) (n : Nat) :
    (∃ m, n ≤ m ∧ requests (r.hist n) <+: answered (r.hist m)) ∨
      ∃ N, ∀ m, N ≤ m → Awaits dg (r.state m) := by
  rcases ep_goes_or_awaits hf hr hb with h | ⟨N, h⟩ | ⟨N, -, h⟩
  · exact .inl (requests_of_goes r (.inl h) n)
  · exact .inl (requests_of_goes r (.inr ⟨N, h⟩) n)
  · exact .inr ⟨N, h⟩

/-- **C138.** Whether the socket answers the endpoint task or not: every message received is handed to the handle
of its interface or dropped, or its connection ends. -/
theorem C138_messages_partial (r : Run dg) (hf : r.FairTasks) (hr : r.Read) (hb : r.Settles) (c n : Nat) :
    ∃ m, n ≤ m ∧ (heard c (r.hist n) <+: settled c (r.hist m) ∨ ConnOver c (r.hist m)) := by
  by_cases hc : (r.state n).connCount ≤ c
  · refine ⟨n, Nat.le_refl _, .inl ?_⟩
    rw [((line (r.exec n)).fresh c hc).1]
    exact List.nil_prefix
  · obtain ⟨m, h1, h2⟩ := run_messages r hf hr hb c n
    obtain ⟨t, -, h3⟩ := r.segment h1
    exact ⟨m, h1, h2.imp (fun h => h)
      (over_of_dead (r.exec m) (Nat.lt_of_lt_of_le (by omega) (connCount_le h3)))⟩

/-- **C138.** Whether the socket answers the endpoint task or not: every call of `send_to` for a destination to
which a connection is registered throughout returns or is given up. -/
theorem C138_calls_partial (r : Run dg) (hf : r.FairTasks) (hb : r.Settles) {k i : Nat} {a : Addr} {x : Msg}
    (h : r.act i = some (.stubSend k a x, .none))
    (hc : ∀ j, i < j → (∀ m, i < m → m ≤ j → inCall k (r.hist m) = true) → ∃ c, Registered (r.state j) a c) :
    ∃ m, i < m ∧ inCall k (r.hist m) = false :=
  calls_return r hf hb h hc

/-- **C138.** Whether the socket answers the endpoint task or not: the answer of a stub to a client whose connection
is registered, as in C115, is put into the queue of this connection, unless, while this call goes on, it is given up,
the listener or the connection ends, or somebody connects from the address anew. -/
theorem C138_answer_partial (r : Run dg) (hf : r.FairTasks) (hb : r.Settles) {k i l c : Nat} {a : Addr} {x : Msg}
    (h : r.act i = some (.stubSend k a x, .none)) (hh : Home (r.hist i) l c a) :
    ∃ j, i < j ∧ (∀ v, i < v → v ≤ j → inCall k (r.hist v) = true) ∧
      (r.act j = some (.stubStep k, .accepted c x) ∨ r.Does j (· = .stubCancel k) ∨
      r.Does j (· = .dropStub k) ∨ ¬ Serving (r.hist j) l c ∨ r.Does j fun y => ∃ l', y = .accept l' a) :=
  answer_during r hf hb h hh

/-! ### What it does hold up -/

/-- **C138** is false of requests: once a call of `proxy` waits for its connection, no call of `serve` or `proxy`
returns before the socket has answered, whatever else happens. -/
theorem C138_blocked {tr t : Trace} {s s' : State} {id : InterfaceId} {a : Addr}
    (hp : s.pc = .proxyConnect id a) (e' : Exec (step dg) s t s') (hn : ∀ ok o, (.ep ok, o) ∉ t) :
    answered (tr ++ t) = answered tr ∧ s'.pc = .proxyConnect id a ∧ Awaits dg s' := by
  suffices key : answered (tr ++ t) = answered tr ∧ s'.pc = .proxyConnect id a by
    refine ⟨key.1, key.2, ?_⟩
    simp [Awaits, step, ep, key.2]
  induction e' with
  | nil => exact ⟨by rw [List.append_nil], hp⟩
  | @snoc t s₁ s₂ y o e₁ hs ih =>
    obtain ⟨h1, h2⟩ := ih fun ok o h => hn ok o (List.mem_append_left _ h)
    have h3 : ¬ EpStep y := by
      rintro ⟨ok, rfl⟩
      exact hn ok o (List.mem_append_right _ (List.mem_singleton.mpr rfl))
    refine ⟨?_, ?_⟩
    · rw [← List.append_assoc, answered, List.filterMap_append, ← answered, h1]
      clear hn ih
      cases move_of_step hs <;> first | exact absurd ⟨_, rfl⟩ h3 | (simp; done) | (split <;> simp)
    · cases move_of_step hs <;> first | exact h2 | exact absurd ⟨_, rfl⟩ h3

example : ∃ tr s, Exec (step false) init tr s ∧ s.pc = .proxyConnect ⟨2, 1⟩ 9 ∧
    answered tr = [.serve ⟨1, 1⟩] ∧ requests tr = [.serve ⟨1, 1⟩, .proxy ⟨2, 1⟩ 9, .serve ⟨3, 1⟩] := by
  obtain ⟨tr, s, e, h⟩ := exec_by (step := step false) (s := init)
    (liveActions.take 9 ++ [.proxy ⟨2, 1⟩ 9, .ep true, .ep true, .ep true, .serve ⟨3, 1⟩])
    (fun (tr : Trace) s => decide (s.pc = .proxyConnect ⟨2, 1⟩ 9 ∧ answered tr = [Request.serve ⟨1, 1⟩] ∧
      requests tr = [.serve ⟨1, 1⟩, .proxy ⟨2, 1⟩ 9, .serve ⟨3, 1⟩])) (by decide +kernel)
  exact ⟨tr, s, e, of_decide_eq_true h⟩

/-- A client talks to a stub, and is answered, while a call of `proxy` waits for a remote that does not answer; a
call of `serve` waits behind it. -/
def Spec.Ep.blockedActions : List Action :=
  liveActions.take 9 ++ [.proxy ⟨2, 1⟩ 9, .ep true, .ep true, .ep true, .serve ⟨3, 1⟩,
    .packet 0 (.packet (frame msgA ++ frame msgA)), .route 0, .route 0, .route 0, .route 0, .route 0, .stubRecv 0,
    .stubRecv 0, .stubSend 0 8 msgA, .stubStep 0, .stubStep 0, .stubStep 0, .connCmd 0, .sent 0 true]

/-- What is asked of `C138_requests_partial`, `C138_messages_partial`, `C138_calls_partial` and
`C138_answer_partial` can be met by a run in which the socket never answers. In it two messages of a client are
received, and it is answered. -/
theorem blocked_run : ∃ r : Run false, r.FairTasks ∧ r.Settles ∧ r.Read ∧ ∃ n,
    requests (r.hist n) = [.serve ⟨1, 1⟩, .proxy ⟨2, 1⟩ 9, .serve ⟨3, 1⟩] ∧ heard 0 (r.hist n) = [msgA, msgA] ∧
    (∃ i, r.act i = some (.stubSend 0 8 msgA, .none) ∧ Home (r.hist i) 0 0 8 ∧
      ∀ j, i < j → ∃ c, Registered (r.state j) 8 c) ∧
    ∀ m, n ≤ m → answered (r.hist m) = [.serve ⟨1, 1⟩] ∧ Awaits false (r.state m) := by
  obtain ⟨tr, s, e, h⟩ := exec_by (step := step false) (s := init) blockedActions
    (fun (tr : Trace) s => resting false s && decide (
      requests tr = [Request.serve ⟨1, 1⟩, .proxy ⟨2, 1⟩ 9, .serve ⟨3, 1⟩] ∧ answered tr = [.serve ⟨1, 1⟩] ∧
      settled 0 tr = [msgA, msgA] ∧ (s.conns 0).alive = true ∧ (s.conns 0).pc = .wait ∧
      s.pc = .proxyConnect ⟨2, 1⟩ 9 ∧ s.stubCount = 1 ∧ s.proxyCount = 0 ∧
      (s.ifaces (s.stubs 0).iface).queue = []) &&
      decide (tr.map Prod.fst = blockedActions ∧ tr[22]? = some (Action.stubSend 0 8 msgA, Obs.none) ∧
        tr.take 22 = (tr.take 22).take 7 ++ (Action.accept 0 8, Obs.opened 0 8) :: (Action.lisShare 0, Obs.none) ::
          (tr.take 22).drop (7 + 2)) &&
      (((tr.take 22).take 7 ++ (tr.take 22).drop (7 + 2)).all fun x =>
        match x.1 with | .accept _ b => b != 8 | _ => true) &&
      (((tr.take 22).take 7).all fun x => match x.1 with | .stubSend _ b _ => b != 8 | _ => true))
    (by decide +kernel)
  simp only [Bool.and_eq_true, decide_eq_true_eq] at h
  obtain ⟨⟨⟨⟨h1, g1, g2, g3, g4, g5, g6, g7, g8, g9⟩, g10, g11, g12⟩, g13⟩, g14⟩ := h
  have hw : Awaits false s := by simp [Awaits, step, ep, g6]
  obtain ⟨r, r1, r2, -, -, r5⟩ := awaiting_fair e h1 hw
  have hg := (good_hist e).1.fresh
  have h6 := g11
  rw [← (r5 _ (Nat.le_refl _)).2.1] at h6
  obtain ⟨i, -, h8, h9⟩ := hist_at h6
  have pre : ∀ j, ∃ t, tr = r.hist j ++ t := fun j => by
    obtain ⟨t, h12, -⟩ := r.segment (Nat.le_max_left j tr.length)
    rw [(r5 _ (Nat.le_max_right ..)).2.1] at h12
    exact ⟨t, h12⟩
  have hlen : tr.length = 28 := by
    have h15 := congrArg List.length g10
    rwa [List.length_map, show blockedActions.length = 28 by decide] at h15
  refine ⟨r, r1, r2, ⟨fun k N => ⟨max N tr.length, Nat.le_max_left .., ?_⟩,
    fun p N => ⟨max N tr.length, Nat.le_max_left .., ?_⟩⟩, tr.length, ?_, ?_, ⟨i, h8, ?_, fun j hj => ⟨0, ?_⟩⟩,
    fun m hm => ?_⟩
  · rw [(r5 _ (Nat.le_max_right ..)).1]
    intro hk
    have := stub_lt hg hk
    obtain rfl : k = 0 := by omega
    rw [g9]
    decide
  · rw [(r5 _ (Nat.le_max_right ..)).1]
    intro hk
    have := proxy_lt hg hk
    omega
  · rw [(r5 _ (Nat.le_refl _)).2.1, g1]
  · rw [(r5 _ (Nat.le_refl _)).2.1, ← (line e).alive 0 g4, g3, g5]
    rfl
  · obtain ⟨t, ht⟩ := pre i
    have h10 : r.hist i = tr.take 22 := by rw [ht, ← h9, List.take_left]
    rw [h10]
    exact home_at 7 g12 g13 g14
  · have h13 : ∀ n, n < 29 → 22 < n →
        (perform (step false) init (blockedActions.take n)).all (fun x => decide (x.2.peers.get 8 = some 0 ∧
          x.2.connStrong 0 = true)) = true := by decide +kernel
    obtain ⟨t, ht⟩ := pre j
    have h14 : (r.hist j).map Prod.fst = blockedActions.take (r.hist j).length := by
      rw [← g10, ht]
      simp
    have h15 : 22 < (r.hist j).length := by
      obtain ⟨t, h11, -⟩ := r.segment (show i + 1 ≤ j from hj)
      rw [h11, r.hist_succ, h8, Option.toList_some]
      simp only [List.length_append, List.length_singleton, h9]
      omega
    have h16 : (r.hist j).length < 29 := by
      have := congrArg List.length ht
      rw [List.length_append] at this
      omega
    have h17 := h13 _ h16 h15
    rw [← h14, perform_of_exec (r.exec j), Option.all_some, decide_eq_true_iff] at h17
    exact h17
  · rw [(r5 m hm).1, (r5 m hm).2.1]
    exact ⟨g2, hw⟩

/-- **C138** is false of requests: over TCP a remote that never answers keeps a call of `serve`, which needs no
connection, from returning for ever, though no task is passed over and every handle is read from. -/
theorem C138_false : ∃ r : Run false, r.FairTasks ∧ r.Settles ∧ r.Read ∧
    ∃ n, .serve ⟨3, 1⟩ ∈ requests (r.hist n) ∧ ∀ m, n ≤ m → Request.serve ⟨3, 1⟩ ∉ answered (r.hist m) := by
  obtain ⟨tr, s, e, h⟩ := exec_by (step := step false) (s := init)
    [.proxy ⟨2, 1⟩ 9, .ep true, .ep true, .ep true, .serve ⟨3, 1⟩]
    (fun (tr : Trace) s => resting false s && decide (s.pc = .proxyConnect ⟨2, 1⟩ 9 ∧ answered tr = [] ∧
      Request.serve ⟨3, 1⟩ ∈ requests tr ∧ s.stubCount = 0 ∧ s.proxyCount = 0)) (by decide +kernel)
  rw [Bool.and_eq_true, decide_eq_true_iff] at h
  obtain ⟨h1, h2, h3, h4, h5, h6⟩ := h
  obtain ⟨r, r1, r2, -, -, r5⟩ := awaiting_fair e h1 (by simp [Awaits, step, ep, h2])
  have hg := (good_hist e).1.fresh
  refine ⟨r, r1, r2, ⟨fun k N => ⟨max N tr.length, Nat.le_max_left .., fun hk => ?_⟩,
    fun p N => ⟨max N tr.length, Nat.le_max_left .., fun hk => ?_⟩⟩, tr.length, ?_, fun m hm => ?_⟩
  · rw [(r5 _ (Nat.le_max_right ..)).1] at hk
    have := stub_lt hg hk
    omega
  · rw [(r5 _ (Nat.le_max_right ..)).1] at hk
    have := proxy_lt hg hk
    omega
  · rwa [(r5 _ (Nat.le_refl _)).2.1]
  · rw [(r5 m hm).2.1, h3]
    exact List.not_mem_nil

end Rsomeip
