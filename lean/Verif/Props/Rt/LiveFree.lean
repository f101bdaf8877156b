import Verif.Props.Rt.LiveTcpHandle
import Verif.Props.Rt.Send

/-! # C135: the only thing that can get stuck is a call of `send_to` that waits for a connection -/

namespace Rsomeip

section
open Rt Rt.Ep Spec Spec.Ep Someip

variable {dg : Bool} {r : Run dg}

/-- The users of all handles call `recv_from` and `recv` again and again, whenever they are not inside another
call of the handle. -/
structure Spec.Ep.Run.Polled (r : Run dg) : Prop where
  stubs : ∀ k, r.FairTo (· = .stubRecv k)
  proxies : ∀ p, r.FairTo (· = .proxyRecv p)

/-- Every call of `send_to` returns, or is given up. -/
def Spec.Ep.Run.Returns (r : Run dg) : Prop := ∀ k N, ∃ m, N ≤ m ∧ inCall k (r.hist m) = false

/-- The queue of a stub whose user reads, and is not inside a call for ever, is not full for ever. -/
theorem polled_stub {k : Nat} (hf : r.FairTo (· = .stubRecv k))
    (hi : ∀ N, ∃ m, N ≤ m ∧ ((r.state m).stubs k).pc = .idle) (N : Nat) :
    ∃ n, N ≤ n ∧ (((r.state n).stubs k).alive = true →
      ((r.state n).ifaces ((r.state n).stubs k).iface).queue.length < 16) := by
  apply Classical.byContradiction
  intro hc
  have full : ∀ n, N ≤ n → ((r.state n).stubs k).alive = true ∧
      16 ≤ ((r.state n).ifaces ((r.state n).stubs k).iface).queue.length := by
    intro n hn
    refine ⟨?_, Nat.le_of_not_lt fun h => hc ⟨n, hn, fun _ => h⟩⟩
    cases ha : ((r.state n).stubs k).alive with
    | true => rfl
    | false => exact absurd ⟨n, hn, fun h => by rw [ha] at h; cases h⟩ hc
  obtain ⟨n, h1, a, o, h2, rfl⟩ := hf (fun M => by
    obtain ⟨m, h1, h2⟩ := hi (max M N)
    obtain ⟨h3, h4⟩ := full m (by omega)
    cases hq : ((r.state m).ifaces ((r.state m).stubs k).iface).queue with
    | nil => rw [hq] at h4; cases h4
    | cons x q => exact ⟨m, by omega, _, _, _, rfl, step_of_move (.stubRecv k x.1 x.2 q h3 h2 hq)⟩) N
  rcases r.move n with ⟨h3, _⟩ | ⟨a, o', h3, h4⟩
  · rw [h2] at h3; cases h3
  · rw [h2] at h3
    cases h3
    have h5 := (full n h1).2
    have h6 := (full (n + 1) (by omega)).2
    have h7 := (caps (r.exec n)).iface ((r.state n).stubs k).iface
    generalize r.state (n + 1) = s' at *
    cases move_of_step h4 with
    | stubRecv _ m a q ha hw hq =>
      simp only [upd_same] at h6
      rw [hq, List.length_cons] at h7
      omega
    | stubClosed _ ha hw hq hs =>
      rw [hq] at h5
      cases h5

/-- The queue of a proxy whose user reads is not full for ever. -/
theorem polled_proxy {p : Nat} (hf : r.FairTo (· = .proxyRecv p)) (N : Nat) :
    ∃ n, N ≤ n ∧ (((r.state n).proxies p).alive = true →
      ((r.state n).ifaces ((r.state n).proxies p).iface).queue.length < 16) := by
  apply Classical.byContradiction
  intro hc
  have full : ∀ n, N ≤ n → ((r.state n).proxies p).alive = true ∧
      16 ≤ ((r.state n).ifaces ((r.state n).proxies p).iface).queue.length := by
    intro n hn
    refine ⟨?_, Nat.le_of_not_lt fun h => hc ⟨n, hn, fun _ => h⟩⟩
    cases ha : ((r.state n).proxies p).alive with
    | true => rfl
    | false => exact absurd ⟨n, hn, fun h => by rw [ha] at h; cases h⟩ hc
  obtain ⟨n, h1, a, o, h2, rfl⟩ := hf (fun M => by
    obtain ⟨h3, h4⟩ := full (max M N) (by omega)
    cases hq : ((r.state (max M N)).ifaces ((r.state (max M N)).proxies p).iface).queue with
    | nil => rw [hq] at h4; cases h4
    | cons x q => exact ⟨max M N, by omega, _, _, _, rfl, step_of_move (.proxyRecv p x.1 x.2 q h3 hq)⟩) N
  rcases r.move n with ⟨h3, _⟩ | ⟨a, o', h3, h4⟩
  · rw [h2] at h3; cases h3
  · rw [h2] at h3
    cases h3
    have h5 := (full n h1).2
    have h6 := (full (n + 1) (by omega)).2
    have h7 := (caps (r.exec n)).iface ((r.state n).proxies p).iface
    generalize r.state (n + 1) = s' at *
    generalize hx : Action.proxyRecv p = x at h4
    cases move_of_step h4 <;> first | (cases hx; done) | skip
    case proxyRecv m a q ha hq =>
      cases hx
      simp only [upd_same] at h6
      rw [hq, List.length_cons] at h7
      omega
    case proxyRecvClosed ha hq hs =>
      cases hx
      rw [hq] at h5
      cases h5

/-- Where users read from their handles, and calls of `send_to` return, no queue stays full. -/
theorem polled_read (hp : r.Polled) (hi : r.Returns) : r.Read :=
  ⟨fun k => polled_stub (hp.stubs k) fun N => by
    obtain ⟨m, h1, h2⟩ := hi k N
    exact ⟨m, h1, (idle_iff (r.exec m) k).mpr h2⟩, fun p => polled_proxy (hp.proxies p)⟩

/-- **C135.** If no task and no call is passed over, users read from their handles whenever they are not inside
another call, and every call of `send_to` returns, then every call of `serve` and `proxy` returns. Nothing is
asked of the queues. -/
theorem C135_requests (r : Run dg) (hf : r.Fair) (hb : r.Settles) (hp : r.Polled) (hi : r.Returns) (n : Nat) :
    ∃ m, n ≤ m ∧ requests (r.hist n) <+: answered (r.hist m) :=
  C104_requests_partial r hf (polled_read hp hi) hb n

/-- **C135.** In the same circumstances every message received is handed to the handle of its interface or
dropped, or the connection ends. -/
theorem C135_messages (r : Run dg) (hf : r.Fair) (hb : r.Settles) (hp : r.Polled) (hi : r.Returns) (c n : Nat) :
    ∃ m, n ≤ m ∧ (heard c (r.hist n) <+: settled c (r.hist m) ∨ ConnOver c (r.hist m)) :=
  C104_messages_partial r hf (polled_read hp hi) hb c n

/-! ### Which calls do not return -/

/-- A call of `send_to` that never returns waits for the endpoint, from some point on. -/
theorem stuck_asks (hf : r.FairTasks) (hb : r.Settles) {k n : Nat}
    (h1 : ∀ m, n ≤ m → ((r.state m).stubs k).pc ≠ .idle) :
    ∃ m, n ≤ m ∧ ∃ a x, ((r.state m).stubs k).pc = .asking a x ∨ ∃ u, ((r.state m).stubs k).pc = .asked a x u := by
  apply Classical.byContradiction
  intro hc
  have hna : ∀ m, n ≤ m → (∀ a x, ((r.state m).stubs k).pc ≠ .asking a x) ∧
      ∀ a x u, ((r.state m).stubs k).pc ≠ .asked a x u :=
    fun m hm => ⟨fun a x h => hc ⟨m, hm, a, x, .inl h⟩, fun a x u h => hc ⟨m, hm, a, x, .inr ⟨u, h⟩⟩⟩
  suffices key : ∀ N, ∃ m, N ≤ m ∧ r.Does m (· = .stubStep k) by
    obtain ⟨m, t, h4, h5, h6, h7⟩ := r.count (f := callSteps k)
      (fun t a o => by rw [callSteps_snoc]; omega)
      (fun t a o ha => by rw [callSteps_snoc, if_pos ha]; omega) key n 5
    obtain ⟨t₁, t₂, s₁, rfl, h8, h9⟩ := call_over h6 h7
    obtain ⟨j, h10, rfl⟩ := r.point h4 h5 h8
    exact h1 j h10 h9
  apply Classical.byContradiction
  intro hc'
  obtain ⟨N, hN⟩ : ∃ N, ∀ m, N ≤ m → ¬ r.Does m (· = .stubStep k) := by
    apply Classical.byContradiction
    intro h
    refine hc' fun N => Classical.byContradiction fun h2 => h ⟨N, fun m hm hd => h2 ⟨m, hm, hd⟩⟩
  obtain ⟨M, hM⟩ : ∃ M, M = max n N := ⟨_, rfl⟩
  have h3 : ∀ m, M ≤ m → ((r.state m).stubs k).pc = ((r.state M).stubs k).pc := by
    intro m hm
    induction m, hm using Nat.le_induction with
    | base => rfl
    | succ m hm ih =>
      rcases r.move m with ⟨_, h6⟩ | ⟨x, o, h6, h7⟩
      · rw [h6]; exact ih
      · have h8 : x ≠ .stubStep k := fun hx => hN m (by omega) ⟨x, o, h6, hx⟩
        have h9 := answer_cases (r.state m)
        have h10 := refuse_cases (r.state m)
        have h11 := h1 (m + 1) (by omega)
        have h12 := h1 m (by omega)
        have h13 := (hna m (by omega)).2
        rw [← ih]
        clear ih
        generalize r.state (m + 1) = z at *
        clear h1 hc hN hc' hna
        cases move_of_step h7 <;> first | rfl | grind [upd, stubAt_apply]
  obtain ⟨M', h4, h5⟩ := (hf.call k).off (N := M) fun m hm => hN m (by omega)
  cases hp : ((r.state M).stubs k).pc with
  | idle => exact h1 M (by omega) hp
  | check a x =>
    obtain ⟨m, h6, h7⟩ := peer_unlocked hf hb a M'
    have h8 := (h3 m (by omega)).trans hp
    refine h5 m h6 ?_
    by_cases h9 : ∃ c, (r.state m).peers.get a = some c ∧ (r.state m).connStrong c = true
    · obtain ⟨c, h9, h10⟩ := h9
      exact ⟨_, _, _, rfl, step_of_move (.checkOk k a x c h8 h7 h9 h10)⟩
    · have h10 : ∀ c, (r.state m).peers.get a = some c → (r.state m).connStrong c = false := by
        intro c h11
        cases h12 : (r.state m).connStrong c with
        | false => rfl
        | true => exact absurd ⟨c, h11, h12⟩ h9
      cases h11 : (r.state m).epStrong with
      | true => exact ⟨_, _, _, rfl, step_of_move (.checkAsk k a x h8 h7 h10 h11)⟩
      | false => exact ⟨_, _, _, rfl, step_of_move (.checkFail k a x h8 h7 h10 h11)⟩
  | asking a x => exact (hna M (by omega)).1 a x hp
  | asked a x u => exact (hna M (by omega)).2 a x u hp
  | share a x c =>
    obtain ⟨m, h6, h7⟩ := peer_unlocked hf hb a M'
    have h8 := (h3 m (by omega)).trans hp
    exact h5 m h6 ⟨_, _, _, rfl, step_of_move (.stubShare k a x c h8 h7)⟩
  | enter a x =>
    obtain ⟨m, h6, h7⟩ := peer_unlocked hf hb a M'
    have h8 := (h3 m (by omega)).trans hp
    refine h5 m h6 ?_
    cases h9 : (r.state m).peers.get a with
    | none => exact ⟨_, _, _, rfl, step_of_move (.enterNone k a x h8 h7 h9)⟩
    | some c =>
      cases h10 : (r.state m).connStrong c with
      | true => exact ⟨_, _, _, rfl, step_of_move (.enterOk k a x c h8 h7 h9 h10)⟩
      | false => exact ⟨_, _, _, rfl, step_of_move (.enterDead k a x c h8 h7 h9 h10)⟩
  | sending a x c =>
    obtain ⟨m, h6, h7⟩ := stub_leaves hf k M'
    exact h7 a x c ((h3 m (by omega)).trans hp)

/-- How a call began. -/
theorem call_began {k m : Nat} {a : Addr} {x : Msg} (h : ((r.state m).stubs k).pc.call = some (a, x)) :
    ∃ i, i < m ∧ r.act i = some (.stubSend k a x, .none) ∧
      (∀ j, i < j → j ≤ m → ((r.state j).stubs k).pc ≠ .idle) ∧
      ((((r.state m).stubs k).pc = .asking a x ∨ ∃ u, ((r.state m).stubs k).pc = .asked a x u) →
        ∃ j, i < j ∧ j < m ∧ ∀ c, ¬ Registered (r.state j) a c) := by
  induction m with
  | zero => rw [r.start] at h; cases h
  | succ m ih =>
    have hne : ((r.state (m + 1)).stubs k).pc ≠ .idle := fun h' => by rw [h'] at h; cases h
    have keep : ∀ {i}, (∀ j, i < j → j ≤ m → ((r.state j).stubs k).pc ≠ .idle) →
        ∀ j, i < j → j ≤ m + 1 → ((r.state j).stubs k).pc ≠ .idle := by
      intro i hi j h1 h2
      rcases Nat.lt_or_ge j (m + 1) with h3 | h3
      · exact hi j h1 (by omega)
      · obtain rfl : j = m + 1 := by omega
        exact hne
    rcases r.move m with ⟨h1, h2⟩ | ⟨y, o, h1, h2⟩
    · rw [h2] at h
      obtain ⟨i, h3, h4, h5, h6⟩ := ih h
      refine ⟨i, by omega, h4, keep h5, fun h7 => ?_⟩
      rw [h2] at h7
      obtain ⟨j, h8, h9, h10⟩ := h6 h7
      exact ⟨j, h8, by omega, h10⟩
    · -- either the call goes on, or this is its beginning
      have key : (((r.state m).stubs k).pc.call = some (a, x) ∧
          ((((r.state (m + 1)).stubs k).pc = .asking a x ∨ ∃ u, ((r.state (m + 1)).stubs k).pc = .asked a x u) →
            (((r.state m).stubs k).pc = .asking a x ∨ ∃ u, ((r.state m).stubs k).pc = .asked a x u) ∨
              ∀ c, (r.state m).peers.get a = some c → (r.state m).connStrong c = false)) ∨
          (y = .stubSend k a x ∧ o = .none ∧ ((r.state (m + 1)).stubs k).pc = .check a x) := by
        have h9 := answer_cases (r.state m)
        have h10 := refuse_cases (r.state m)
        clear ih keep hne
        generalize r.state (m + 1) = z at *
        generalize r.state m = s at *
        clear h1
        cases move_of_step h2 <;> first
          | exact .inl ⟨h, fun h => .inl h⟩
          | grind [upd, stubAt_apply, StubPc.call]
      rcases key with ⟨h3, h4⟩ | ⟨rfl, rfl, h3⟩
      · obtain ⟨i, h5, h6, h7, h8⟩ := ih h3
        refine ⟨i, by omega, h6, keep h7, fun h9 => ?_⟩
        rcases h4 h9 with h10 | h10
        · obtain ⟨j, h11, h12, h13⟩ := h8 h10
          exact ⟨j, h11, by omega, h13⟩
        · refine ⟨m, h5, by omega, fun c hc => ?_⟩
          have := hc.2
          rw [h10 c hc.1] at this
          cases this
      · refine ⟨m, by omega, h1, fun j h4 h5 => ?_, fun h4 => ?_⟩
        · obtain rfl : j = m + 1 := by omega
          exact hne
        · rw [h3] at h4
          rcases h4 with h4 | ⟨u, h4⟩ <;> cases h4

/-- Only calls that ask the endpoint to open a connection can get stuck. -/
theorem calls_return (r : Run dg) (hf : r.FairTasks) (hb : r.Settles) {k i : Nat} {a : Addr} {x : Msg}
    (h : r.act i = some (.stubSend k a x, .none))
    (hc : ∀ j, i < j → (∀ m, i < m → m ≤ j → inCall k (r.hist m) = true) → ∃ c, Registered (r.state j) a c) :
    ∃ m, i < m ∧ inCall k (r.hist m) = false := by
  apply Classical.byContradiction
  intro hn
  have h1 : ∀ m, i < m → ((r.state m).stubs k).pc ≠ .idle := fun m hm h =>
    hn ⟨m, hm, (idle_iff (r.exec m) k).mp h⟩
  obtain ⟨m, h2, b, y, h3⟩ := stuck_asks hf hb (k := k) (n := i + 1) fun m hm => h1 m (by omega)
  have h4 : ((r.state m).stubs k).pc.call = some (b, y) := by
    rcases h3 with h3 | ⟨u, h3⟩ <;> rw [h3] <;> rfl
  obtain ⟨i', h5, h6, h7, h8⟩ := call_began h4
  obtain ⟨j, h9, h10, h11⟩ := h8 h3
  have h12 : ((r.state i').stubs k).pc = .idle := by
    rcases r.move i' with ⟨h, _⟩ | ⟨z, o, h13, h14⟩
    · rw [h6] at h; cases h
    · rw [h6] at h13
      cases h13
      generalize r.state (i' + 1) = s' at h14
      cases move_of_step h14
      assumption
  have h13 : i' = i := by
    rcases Nat.lt_trichotomy i' i with h' | h' | h'
    · have h15 := h7 i h' (by omega)
      rcases r.move i with ⟨h13, _⟩ | ⟨z, o, h13, h14⟩
      · rw [h] at h13; cases h13
      · rw [h] at h13
        cases h13
        generalize r.state (i + 1) = s' at h14
        cases move_of_step h14
        contradiction
    · exact h'
    · exact absurd h12 (h1 i' h')
  subst h13
  rw [h] at h6
  cases h6
  obtain ⟨c, h14⟩ := hc j h9 fun m h15 h16 => (busy_iff (r.exec m) k).mp (h1 m h15)
  exact h11 c h14

/-- **C135.** If no task and no call is passed over, then every call of `send_to` returns or is given up, unless
at some point during the call no connection to its destination was registered: only calls that ask the endpoint
to open a connection can get stuck. Nothing is asked of those who use the handles. -/
theorem C135_returns (r : Run dg) (hf : r.Fair) (hb : r.Settles) {k i : Nat} {a : Addr} {x : Msg}
    (h : r.act i = some (.stubSend k a x, .none))
    (hc : ∀ j, i < j → (∀ m, i < m → m ≤ j → inCall k (r.hist m) = true) → ∃ c, Registered (r.state j) a c) :
    ∃ m, i < m ∧ inCall k (r.hist m) = false :=
  calls_return r hf hb h hc

/-- **C135.** In particular, everything gets done if nobody calls `send_to`, or only for destinations to which
a connection is registered. -/
theorem C135_free (r : Run dg) (hf : r.Fair) (hb : r.Settles)
    (hc : ∀ i j k a x, r.act i = some (.stubSend k a x, .none) → i < j →
      (∀ m, i < m → m ≤ j → inCall k (r.hist m) = true) → ∃ c, Registered (r.state j) a c) : r.Returns := by
  intro k N
  apply Classical.byContradiction
  intro hn
  have h1 : ∀ m, N ≤ m → ((r.state m).stubs k).pc ≠ .idle := fun m hm h =>
    hn ⟨m, hm, (idle_iff (r.exec m) k).mp h⟩
  have h2 : ∃ a x, ((r.state N).stubs k).pc.call = some (a, x) := by
    cases hp : ((r.state N).stubs k).pc with
    | idle => exact absurd hp (h1 N (Nat.le_refl _))
    | _ => exact ⟨_, _, rfl⟩
  obtain ⟨a, x, h2⟩ := h2
  obtain ⟨i, h3, h4, h5, -⟩ := call_began h2
  obtain ⟨m, h6, h7⟩ := C135_returns r hf hb h4 fun j => hc i j k a x h4
  rcases Nat.lt_or_ge m N with h8 | h8
  · exact h5 m h6 (by omega) ((idle_iff (r.exec m) k).mpr h7)
  · exact hn ⟨m, h8, h7⟩

theorem perform_snoc {σ α ω : Type} {step : σ → α → Option (σ × ω)} {s s' s'' : σ} {as : List α}
    {tr : List (α × ω)} {a : α} {o : ω} (h : perform step s as = some (tr, s')) (hs : step s' a = some (s'', o)) :
    perform step s (as ++ [a]) = some (tr ++ [(a, o)], s'') := by
  induction as generalizing s tr with
  | nil => cases h; simp [perform, hs]
  | cons b as ih =>
    simp only [perform] at h
    split at h
    · cases h
    · rename_i s₁ o₁ h₁
      split at h
      · cases h
      · rename_i t s₂ h₂
        cases h
        simp [perform, h₁, ih h₂]

theorem perform_of_exec {σ α ω : Type} {step : σ → α → Option (σ × ω)} {s s' : σ} {tr : List (α × ω)}
    (e : Exec step s tr s') : perform step s (tr.map Prod.fst) = some (tr, s') := by
  induction e with
  | nil => rfl
  | snoc e hs ih => rw [List.map_append]; exact perform_snoc ih hs

/-- When something in the history happened. -/
theorem hist_at {m i : Nat} {x : Action × Obs} (h : (r.hist m)[i]? = some x) :
    ∃ j, j < m ∧ r.act j = some x ∧ (r.hist j).length = i := by
  induction m with
  | zero => simp [Run.hist] at h
  | succ m ih =>
    rw [r.hist_succ] at h
    rcases Nat.lt_or_ge i (r.hist m).length with h1 | h1
    · rw [List.getElem?_append_left h1] at h
      obtain ⟨j, h2, h3⟩ := ih h
      exact ⟨j, by omega, h3⟩
    · rw [List.getElem?_append_right h1] at h
      cases ha : r.act m with
      | none => rw [ha] at h; simp at h
      | some y =>
        rw [ha, Option.toList_some] at h
        obtain ⟨h2, h3⟩ := List.getElem?_eq_some_iff.mp h
        simp only [List.length_singleton] at h2
        refine ⟨m, by omega, ?_, by omega⟩
        rw [ha, ← h3]
        simp

/-- A stub answers a peer it knows, and sends to a new one; a proxy and the stub return what was sent to them.
Nobody is passed over. -/
example : ∃ (r : Run true) (n : Nat), r.Fair ∧ r.Settles ∧ r.Polled ∧ r.Returns ∧
    (requests (r.hist n)).length = 2 ∧ (routedTo 0 (r.hist n)).length = 1 := by
  obtain ⟨tr, s, e, h⟩ := exec_by (step := step true) (s := init) liveActions
    (fun tr s => halted true s && decide ((∀ k, k < s.stubCount → (s.stubs k).pc = .idle) ∧
      (requests tr).length = 2 ∧ (routedTo 0 tr).length = 1))
    (by decide +kernel)
  rw [Bool.and_eq_true, decide_eq_true_iff] at h
  obtain ⟨r, h1, h2, h3, h4, h5⟩ := halted_fair e h.1
  refine ⟨r, tr.length, h1, h2, ⟨h3, h4⟩, fun k N => ⟨max N tr.length, Nat.le_max_left .., ?_⟩, ?_⟩
  · rw [(h5 _ (Nat.le_max_right ..)).2]
    refine (idle_iff e k).mp ?_
    rcases Nat.lt_or_ge k s.stubCount with h6 | h6
    · exact h.2.1 k h6
    · rw [(good_hist e).1.fresh.stubs k h6]
  · rw [(h5 _ (Nat.le_refl _)).2]; exact h.2.2

/-- A stub answers a peer that is connected, and nobody else calls `send_to`. -/
example : ∃ (r : Run true) (i : Nat), r.Fair ∧ r.Settles ∧ r.act i = some (.stubSend 0 8 msgA, .none) ∧
    ∀ i j k a x, r.act i = some (.stubSend k a x, .none) → i < j → ∃ c, Registered (r.state j) a c := by
  obtain ⟨tr, s, e, h⟩ := exec_by (step := step true) (s := init) (liveActions.take 37)
    (fun tr s => halted true s && decide (tr.map Prod.fst = liveActions.take 37 ∧
      tr[31]? = some (Action.stubSend 0 8 msgA, Obs.none)))
    (by decide +kernel)
  rw [Bool.and_eq_true, decide_eq_true_iff] at h
  obtain ⟨r, h1, h2, -, -, h5⟩ := halted_fair e h.1
  have h6 := h.2.2
  rw [← (h5 _ (Nat.le_refl _)).2] at h6
  obtain ⟨i, -, h8, -⟩ := hist_at h6
  refine ⟨r, i, h1, h2, h8, fun i j k a x hi hj => ⟨0, ?_⟩⟩
  have pre : ∀ j, ∃ t, tr = r.hist j ++ t := fun j => by
    obtain ⟨t, h12, -⟩ := r.segment (Nat.le_max_left j tr.length)
    rw [(h5 _ (Nat.le_max_right ..)).2] at h12
    exact ⟨t, h12⟩
  have hlen : tr.length = 37 := by
    have h15 := congrArg List.length h.2.1
    rwa [List.length_map, show (liveActions.take 37).length = 37 by decide] at h15
  have h9 : (liveActions.take 37)[(r.hist i).length]? = some (.stubSend k a x) := by
    obtain ⟨t, ht⟩ := pre (i + 1)
    rw [r.hist_succ, hi, Option.toList_some] at ht
    rw [← h.2.1, ht]
    simp
  have h10 : ∀ n, n < 37 → ∀ y ∈ (liveActions.take 37)[n]?,
      (match y with | .stubSend _ b _ => decide (b = 8 ∧ n = 31) | _ => true) = true := by decide +kernel
  have h11 : (r.hist i).length < 37 := (List.getElem?_eq_some_iff.mp h9).1
  obtain ⟨rfl, h12⟩ := of_decide_eq_true (h10 _ h11 _ h9)
  have h13 : ∀ n, n < 38 → 31 < n →
      (perform (step true) init ((liveActions.take 37).take n)).all (fun x => decide (x.2.peers.get 8 = some 0 ∧
        x.2.connStrong 0 = true)) = true := by decide +kernel
  obtain ⟨t, ht⟩ := pre j
  have h14 : (r.hist j).map Prod.fst = (liveActions.take 37).take (r.hist j).length := by
    rw [← h.2.1, ht]
    simp
  have h15 : 31 < (r.hist j).length := by
    obtain ⟨t, h11, -⟩ := r.segment (show i + 1 ≤ j from hj)
    rw [h11, r.hist_succ, hi, Option.toList_some]
    simp only [List.length_append, List.length_singleton, h12]
    omega
  have h16 : (r.hist j).length < 38 := by
    have := congrArg List.length ht
    rw [List.length_append] at this
    omega
  have h17 := h13 _ h16 h15
  rw [← h14, perform_of_exec (r.exec j), Option.all_some, decide_eq_true_iff] at h17
  exact h17

end

/-! ### On a network -/

section
open Rt Rt.Net Spec Spec.Ep Spec.Net Someip
open Spec.Node (SendStep Mishap CutOff app socket)

variable {own : Addr → Bool} {r : Run own}

/-- The users of all handles of the program at `n` call `recv_from` and `recv` again and again, whenever they are
not inside another call of the handle. -/
structure Spec.Net.Polled (r : Run own) (n : Addr) : Prop where
  stubs : ∀ k, r.FairTo (At n (· = .app (.stubRecv k)))
  proxies : ∀ p, r.FairTo (At n (· = .app (.proxyRecv p)))

/-- Every call of `send_to` of the program at `n` returns, or is given up. -/
def Spec.Net.CallsEnd (r : Run own) (n : Addr) : Prop :=
  ∀ k N, ∃ t, N ≤ t ∧ inCall k (app (at_ n (r.hist t))) = false

theorem net_polled {n : Addr} (hn : own n = true) (hp : Polled r n) (hi : CallsEnd r n) : Read r n := by
  have h : (Node.epRun (nodeRun r n)).Read := by
    refine polled_read ⟨fun k => fair_stubRecv (node_fair hn (by rintro a p h; cases h) (hp.stubs k)),
      fun p => fair_proxyRecv (node_fair hn (by rintro a p h; cases h) (hp.proxies p))⟩ fun k N => ?_
    simpa only [Node.epRun_hist, nodeRun_hist] using hi k N
  exact ⟨h.stubs, h.proxies⟩

/-- **C135.** C133 without any assumption on queues: it is enough that the users of the program at `n` read from
all handles whenever they are not inside another call, and that calls of `send_to` return. -/
theorem C135_request {a n : Addr} {c t k i : Nat} {id : InterfaceId} {m : Msg} {x : Rt.Ep.Action} {o : Node.Obs}
    (ha : own a = true) (hn : own n = true) (hs : r.FairTo (At a (SendStep c))) (hf : Fair r n) (hp : Polled r n)
    (hi : CallsEnd r n) (hb : Settles r n) (hw : Carries r a n)
    (hc : Shown (app (at_ a (r.hist t))) (.opened c n)) (hk : Shown (app (at_ n (r.hist t))) (.serving k i id))
    (h : r.act t = some ((a, .app x), o)) (ho : o.ep = some (.accepted c m)) (hl : 16 + m.payload.length ≤ 1400)
    (hm : Normal m) (hid : For m id) :
    ∃ u, t ≤ u ∧ (ConnOver c (app (at_ a (r.hist u))) ∨ (.failure, .none) ∈ socket (at_ n (r.hist u)) ∨
      Mishap a (frame m) (socket (at_ n (r.hist t))) (socket (at_ n (r.hist u))) ∨
      (.dropStub k, .none) ∈ app (at_ n (r.hist u)) ∨
      ∃ q, stubGot k (app (at_ n (r.hist u))) = stubGot k (app (at_ n (r.hist t))) ++ q ∧ (m, a) ∈ q) :=
  C133_request ha hn hs hf (net_polled hn hp hi) hb hw (hp.stubs k) hc hk h ho hl hm hid

/-- **C135.** The same for proxies. -/
theorem C135_reply {a n : Addr} {c t p i : Nat} {id : InterfaceId} {m : Msg} {x : Rt.Ep.Action} {o : Node.Obs}
    (ha : own a = true) (hn : own n = true) (hs : r.FairTo (At a (SendStep c))) (hf : Fair r n) (hp : Polled r n)
    (hi : CallsEnd r n) (hb : Settles r n) (hw : Carries r a n)
    (hc : Shown (app (at_ a (r.hist t))) (.opened c n)) (hk : Shown (app (at_ n (r.hist t))) (.proxying p i id a))
    (h : r.act t = some ((a, .app x), o)) (ho : o.ep = some (.accepted c m)) (hl : 16 + m.payload.length ≤ 1400)
    (hm : Normal m) (hid : For m id) :
    ∃ u, t ≤ u ∧ (ConnOver c (app (at_ a (r.hist u))) ∨ (.failure, .none) ∈ socket (at_ n (r.hist u)) ∨
      Mishap a (frame m) (socket (at_ n (r.hist t))) (socket (at_ n (r.hist u))) ∨
      (.dropProxy p, .none) ∈ app (at_ n (r.hist u)) ∨
      CutOff (at_ n (r.hist u)) p a ∨
      ∃ q, proxyGot p (app (at_ n (r.hist u))) = proxyGot p (app (at_ n (r.hist t))) ++ q ∧ m ∈ q) :=
  C133_reply ha hn hs hf (net_polled hn hp hi) hb hw (hp.proxies p) hc hk h ho hl hm hid

example : ∃ r : Run two, (∀ n, two n = true → Fair r n ∧ Polled r n ∧ CallsEnd r n ∧ Settles r n) ∧
    Carries r 5 6 ∧ Carries r 6 5 ∧
    (∃ t o, Shown (app (at_ 5 (r.hist t))) (.opened 0 6) ∧ Shown (app (at_ 6 (r.hist t))) (.serving 0 0 ⟨1, 1⟩) ∧
      r.act t = some ((5, .app (.proxySend 0 Ep.msgA)), o) ∧ o.ep = some (.accepted 0 Ep.msgA)) ∧
    (∃ t o, Shown (app (at_ 6 (r.hist t))) (.opened 0 5) ∧
      Shown (app (at_ 5 (r.hist t))) (.proxying 0 0 ⟨1, 1⟩ 6) ∧
      r.act t = some ((6, .app (.stubStep 0)), o) ∧ o.ep = some (.accepted 0 answerA)) := by
  obtain ⟨r, h1, h2, h3, h4, ⟨t, o, h5, h6, h7, h8, -⟩, ⟨t', o', g5, g6, g7, g8, -⟩, -⟩ := udp_talk
  exact ⟨r, fun n hn => ⟨(h1 n hn).1, ⟨(h4 n hn).1, (h4 n hn).2.1⟩, (h4 n hn).2.2, (h1 n hn).2.2⟩, h2, h3,
    ⟨t, o, h5, h6, h7, h8⟩, t', o', g5, g6, g7, g8⟩

end

section
open Rt Rt.TcpNet Spec Spec.Ep Spec.TcpNet Someip
open Spec.TcpNode (app)
open Spec.Node (reads)

variable {own : Addr → Bool} {r : Run own}

/-- As above, over TCP. -/
structure Spec.TcpNet.Polled (r : Run own) (n : Addr) : Prop where
  stubs : ∀ k, r.FairTo (At n (· = .app (.stubRecv k)))
  proxies : ∀ p, r.FairTo (At n (· = .app (.proxyRecv p)))

/-- As above, over TCP. -/
def Spec.TcpNet.CallsEnd (r : Run own) (n : Addr) : Prop :=
  ∀ k N, ∃ t, N ≤ t ∧ inCall k (app (at_ n (r.hist t))) = false

theorem tcp_net_polled {n : Addr} (hn : own n = true) (hp : Polled r n) (hi : CallsEnd r n) : Read r n := by
  have h : (TcpNode.epRun (nodeRun r n)).Read := by
    refine polled_read ⟨fun k => tcp_fair_stubRecv (node_fair hn (by rintro x rfl; simp) (hp.stubs k)),
      fun p => tcp_fair_proxyRecv (node_fair hn (by rintro x rfl; simp) (hp.proxies p))⟩ fun k N => ?_
    simpa only [TcpNode.epRun_hist, nodeRun_hist] using hi k N
  exact ⟨h.stubs, h.proxies⟩

/-- **C135.** C128 without any assumption on queues: if the users of the program at `n` read from all handles
whenever they are not inside another call, and calls of `send_to` return, then everything accepted at one end of
a connection is read at the other end, byte by byte, and all messages of what was read are handed to the handles
of their interfaces or dropped, unless the connection is broken. -/
theorem C135_bytes (hf : Fair r) {n : Addr} (hn : own n = true) (hp : Polled r n) (hi : CallsEnd r n)
    (hb : Settles r n) :
    ∃ pair : Nat → Addr → Nat → Option (Addr × Nat), Coupled r pair ∧
      ∀ t c m d, pair t n c = some (m, d) → ∃ u, t ≤ u ∧ (Useless n c m d (r.hist u) ∨
        ∃ p, ((accepted d (app (at_ m (r.hist t)))).map wireForm).flatten <+: p.flatten ∧
          p <+: reads c (app (at_ n (r.hist u))) ∧
          p.flatMap contents <+: settled c (app (at_ n (r.hist u)))) :=
  C128_bytes_partial hf (tcp_net_polled hn hp hi) hb

example : ∃ r : Run Spec.Net.two, Fair r ∧
    (∀ n, Spec.Net.two n = true → Polled r n ∧ CallsEnd r n ∧ Settles r n) ∧
    (∃ t l, (.accept l 5, .opened 0 5) ∈ app (at_ 6 (r.hist t))) ∧ (∀ t, ¬ Useless 6 0 5 0 (r.hist t)) ∧
    ∃ t, stubGot 0 (app (at_ 6 (r.hist t))) = [(Ep.msgA, 5)] := by
  obtain ⟨r, h1, h2, h3, h4, -, -, h5, -, -, -, -, -, -, t, h6, -⟩ := tcp_talk
  exact ⟨r, h1, fun n hn => ⟨⟨(h5 n hn).1, (h5 n hn).2.1⟩, (h5 n hn).2.2, (h2 n hn).2⟩, h3, fun t => (h4 t).1, t, h6⟩

end

end Rsomeip
