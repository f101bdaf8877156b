import Verif.Lemmas.EpRun
import Verif.Props.Rt.Bounded

/-! # C104: in the long run everything gets done -/

namespace Rsomeip

open Rt Rt.Ep Spec Spec.Ep Someip

variable {dg : Bool}

/-- Messages that are not yet handed to the socket keep the sending task busy. -/
theorem send_enabled {s : State} {c : Nat} (ha : (s.conns c).alive = true)
    (h : (s.conns c).todo ≠ []) : Enabled dg s (SendStep c) := by
  cases ho : (s.conns c).out with
  | some b => exact ⟨.sent c true, _, _, .inr ⟨true, rfl⟩, step_of_move (.sentOk c b ho)⟩
  | none =>
    cases hq : (s.conns c).cmds with
    | nil => simp [Conn.todo, ho, hq, messages] at h
    | cons x q =>
      cases x with
      | take id i => exact ⟨.connCmd c, _, _, .inl rfl, step_of_move (.cmdTake c id i q ha ho hq)⟩
      | message m =>
        cases hb : outgoing m with
        | some b =>
          exact ⟨.connCmd c, _, _, .inl rfl, step_of_move (.cmdMessage c m q b ha ho hq hb)⟩
        | none => exact ⟨.connCmd c, _, _, .inl rfl, step_of_move (.cmdPanic c m q ha ho hq hb)⟩

theorem run_sent (r : Run dg) (c : Nat) (hf : r.FairTo (SendStep c)) (n : Nat) : ∃ m, n ≤ m ∧
    ((accepted c (r.hist n)).map wireForm <+: onWire c (r.hist m) ∨
      ((r.state m).conns c).alive = false) := by
  apply Classical.byContradiction
  intro hc
  have h1 : ∀ m, n ≤ m → ¬ (accepted c (r.hist n)).map wireForm <+: onWire c (r.hist m) ∧
      ((r.state m).conns c).alive = true := by
    intro m hm
    refine ⟨fun h => hc ⟨m, hm, .inl h⟩, ?_⟩
    cases ha : ((r.state m).conns c).alive with
    | true => rfl
    | false => exact absurd ⟨m, hm, .inr ha⟩ hc
  have h2 : ∀ m, n ≤ m → Enabled dg (r.state m) (SendStep c) := by
    intro m hm
    obtain ⟨h3, h4⟩ := h1 m hm
    refine send_enabled h4 fun h5 => h3 ?_
    have h6 := (wire (r.exec m)).alive c h4
    rw [h5, List.append_nil] at h6
    rw [h6]
    obtain ⟨t, h7, -⟩ := r.segment hm
    rw [h7, accepted, accepted, List.filterMap_append]
    exact (List.prefix_append ..).map _
  have h3 := hf fun M => ⟨max M n, Nat.le_max_left .., h2 _ (Nat.le_max_right ..)⟩
  obtain ⟨m, t, h4, h5, h6, h7⟩ := r.count (f := sendSteps c)
    (fun t a o => by rw [sendSteps_snoc]; omega)
    (fun t a o ha => by
      rw [sendSteps_snoc, if_pos]
      · omega
      · rcases ha with rfl | ⟨ok, rfl⟩
        · exact .inl rfl
        · cases ok
          · exact .inr (.inr rfl)
          · exact .inr (.inl rfl)) h3 n 3
  rcases sent_or_dead (r.exec n) h6 h7 with h8 | h8
  · rw [← h5] at h8
    exact (h1 m h4).1 h8
  · rw [(h1 m h4).2] at h8
    cases h8

/-- **C104.** If the sending task of a connection is not passed over, then every message accepted by
`send` or `send_to` is handed to the socket, or the connection ends. Nothing is asked of the users of
the endpoint. -/
theorem C104_sent (r : Run dg) (c : Nat) (hf : r.FairTo (SendStep c)) (n : Nat) : ∃ m, n ≤ m ∧
    ((accepted c (r.hist n)).map wireForm <+: onWire c (r.hist m) ∨ ConnOver c (r.hist m)) := by
  by_cases hc : (r.state n).connCount ≤ c
  · refine ⟨n, Nat.le_refl _, .inl ?_⟩
    rw [((wire (r.exec n)).new c hc).2]
    exact List.nil_prefix
  · obtain ⟨m, h1, h2⟩ := run_sent r c hf n
    obtain ⟨t, -, h3⟩ := r.segment h1
    exact ⟨m, h1, h2.imp id
      (over_of_dead (r.exec m) (Nat.lt_of_lt_of_le (by omega) (connCount_le h3)))⟩

theorem ownSteps_snoc (t : Trace) (a : Action) (o : Obs) :
    ownSteps t ≤ ownSteps (t ++ [(a, o)]) ∧ (EpStep a → ownSteps t < ownSteps (t ++ [(a, o)])) := by
  rw [ownSteps_append]
  refine ⟨by omega, ?_⟩
  rintro ⟨ok, rfl⟩
  simp [ownSteps]

/-- Where the endpoint task goes on, or has nothing left to do, calls of `serve` and `proxy` return. -/
theorem requests_of_goes (r : Run dg) (h : (∀ N, ∃ n, N ≤ n ∧ r.Does n EpStep) ∨
    ∃ N, ∀ n, N ≤ n → (r.state n).cmds = [] ∧ ((r.state n).pc = .idle ∨ (r.state n).pc = .stopped)) (n : Nat) :
    ∃ m, n ≤ m ∧ requests (r.hist n) <+: answered (r.hist m) := by
  rcases h with h | ⟨N, h⟩
  · obtain ⟨m, t, h1, h2, h3, h4⟩ := r.count (f := ownSteps) (fun t a o => (ownSteps_snoc t a o).1)
      (fun t a o => (ownSteps_snoc t a o).2) h n 54
    refine ⟨m, h1, ?_⟩
    rw [h2]
    exact C102_requests (r.exec n) h3 h4
  · refine ⟨max n N, Nat.le_max_left .., ?_⟩
    obtain ⟨h1, h2⟩ := h (max n N) (Nat.le_max_right ..)
    obtain ⟨t, h3, -⟩ := r.segment (Nat.le_max_left n N)
    have h4 := asked (r.exec (max n N))
    have h5 : (r.state (max n N)).pc.current = [] := by rcases h2 with h2 | h2 <;> rw [h2] <;> rfl
    have h6 : waiting ([] : List EpCmd) = [] := rfl
    rw [h1, h5, h6, List.append_nil, List.append_nil] at h4
    rw [h4, h3, requests, requests, List.filterMap_append]
    exact List.prefix_append ..

/-- **C104.** If no task and no call is passed over, and no handle stays full for ever, then every call
of `serve` and `proxy` returns. -/
theorem C104_requests_partial (r : Run dg) (hf : r.Fair) (hr : r.Read) (hb : r.Settles) (n : Nat) :
    ∃ m, n ≤ m ∧ requests (r.hist n) <+: answered (r.hist m) :=
  requests_of_goes r (ep_goes hf hr hb) n

/-- An execution is determined by what happens in it. -/
theorem exec_det {s s₁ s₂ : State} {t : Trace} (h₁ : Exec (step dg) s t s₁)
    (h₂ : Exec (step dg) s t s₂) : s₁ = s₂ := by
  induction h₁ generalizing s₂ with
  | nil =>
    generalize ht : ([] : Trace) = t at h₂
    cases h₂ with
    | nil => rfl
    | snoc => simp at ht
  | snoc e hs ih =>
    obtain ⟨s', e', hs'⟩ := h₂.last
    rw [ih e'] at hs
    rw [hs] at hs'
    exact (Prod.mk.inj (Option.some.inj hs')).1

/-- There is room in the queue of the endpoint again and again. -/
theorem ep_room {r : Run dg} (hf : r.Fair) (hr : r.Read) (hb : r.Settles) (N : Nat) :
    ∃ n, N ≤ n ∧ (r.state n).cmds.length < epCap := by
  rcases ep_goes hf hr hb with h | ⟨M, h⟩
  · apply Classical.byContradiction
    intro hc
    have h1 : ∀ n, N ≤ n → 8 ≤ (r.state n).cmds.length :=
      fun n hn => Nat.not_lt.mp fun h2 => hc ⟨n, hn, h2⟩
    -- no command is taken from the queue, so the task makes at most five more steps
    have h2 : ∀ n, N ≤ n →
        ownSteps (r.hist n) + (r.state n).pc.left ≤ ownSteps (r.hist N) + (r.state N).pc.left := by
      intro n hn
      induction n, hn using Nat.le_induction with
      | base => exact Nat.le_refl _
      | succ n hn ih =>
        rw [r.hist_succ]
        rcases r.move n with ⟨h3, h4⟩ | ⟨a, o, h3, h4⟩
        · rw [h3, h4]
          simpa using ih
        · rw [h3, Option.toList_some, ownSteps_append]
          have h5 := h1 n hn
          have h6 := h1 (n + 1) (by omega)
          have h7 := (caps (r.exec n)).ep
          have h8 := works (move_of_step h4) (List.append_nil _).symm
          rcases h8 with ⟨h9, _⟩ | ⟨old, new, h9, _, h10⟩
          · rw [h9] at h5; simp at h5
          · refine Nat.le_trans ?_ ih
            have h11 : a = .ep true ∨ a = .ep false ∨ ¬ EpStep a := by
              by_cases hx : EpStep a
              · obtain ⟨ok, rfl⟩ := hx
                cases ok <;> simp
              · exact .inr (.inr hx)
            generalize r.state (n + 1) = z at *
            clear h9 h10 ih h1 hc h h3
            cases move_of_step h4 <;> simp_all [ownSteps, EpPc.left] <;> omega
    obtain ⟨m, t, h4, h5, -, h7⟩ := r.count (f := ownSteps)
      (fun t a o => (ownSteps_snoc t a o).1) (fun t a o => (ownSteps_snoc t a o).2) h N 6
    have h8 := h2 m h4
    have h9 := (r.state N).pc.left_le
    rw [h5, ownSteps_append] at h8
    omega
  · obtain ⟨h1, -⟩ := h (max N M) (Nat.le_max_right ..)
    exact ⟨max N M, Nat.le_max_left .., by rw [h1]; decide⟩

theorem run_send (r : Run dg) (hf : ∀ c, r.FairTo (SendStep c)) (p : Nat) (x : Msg) (n : Nat)
    (hp : ∀ m, n ≤ m → ((r.state m).proxies p).alive = true) :
    ∃ m, n ≤ m ∧ Enabled dg (r.state m) (· = .proxySend p x) := by
  obtain ⟨m, h1, h2⟩ : ∃ m, n ≤ m ∧
      (((r.state m).conns ((r.state m).proxies p).conn).alive = true →
        ((r.state m).conns ((r.state m).proxies p).conn).cmds.length < connCap) := by
    obtain ⟨m, h1, h2⟩ := conn_room hf ((r.state n).proxies p).conn n
    refine ⟨m, h1, ?_⟩
    have h3 : ((r.state m).proxies p).conn = ((r.state n).proxies p).conn := by
      have key : ∀ j, n ≤ j → ((r.state j).proxies p).alive = true ∧
          ((r.state j).proxies p).conn = ((r.state n).proxies p).conn := by
        refine r.stays (P := fun s => (s.proxies p).alive = true ∧
          (s.proxies p).conn = ((r.state n).proxies p).conn) ⟨hp n (Nat.le_refl _), rfl⟩ ?_
        intro j a o s s' hj ha hs hk hmv
        have h4 := proxy_lt (good_hist (r.exec j)).1.fresh (hp j hj)
        have h5 := hp (j + 1) (by omega)
        rcases r.move j with ⟨h6, _⟩ | ⟨a', o', h6, h7⟩
        · rw [ha] at h6; cases h6
        · rw [ha] at h6
          cases h6
          rw [hs] at h4 h7
          rw [step_of_move hmv] at h7
          obtain ⟨h7, _⟩ := Prod.mk.inj (Option.some.inj h7)
          rw [← h7] at h5
          clear h7 hp hs h2
          cases hmv <;> first | exact hk | grind [upd]
      exact (key m h1).2
    rw [h3]
    exact h2
  refine ⟨m, h1, ?_⟩
  cases ha : ((r.state m).conns ((r.state m).proxies p).conn).alive with
  | true => exact ⟨_, _, _, rfl, step_of_move (.proxySend p x (hp m h1) ha (h2 ha))⟩
  | false => exact ⟨_, _, _, rfl, step_of_move (.proxySendFail p x (hp m h1) ha)⟩

/-- **C104.** A call of `Proxy::send` finds room again and again, or the connection has ended, which it
reports. -/
theorem C104_send (r : Run dg) (hf : ∀ c, r.FairTo (SendStep c)) (p : Nat) (x : Msg) (n : Nat)
    (hp : ∀ m, n ≤ m → ProxyOpen p (r.hist m)) :
    ∃ m, n ≤ m ∧ Enabled dg (r.state m) (· = .proxySend p x) :=
  run_send r hf p x n fun m hm => (proxy_open_iff (r.exec m) p).mpr (hp m hm)

/-- The points an execution passes are points of time. -/
theorem _root_.Rsomeip.Spec.Ep.Run.point (r : Run dg) {n m : Nat} {t u : Trace} {s : State}
    (h : n ≤ m) (hh : r.hist m = r.hist n ++ (t ++ u)) (e : Exec (step dg) (r.state n) t s) :
    ∃ j, n ≤ j ∧ r.state j = s := by
  suffices key : ∃ j, n ≤ j ∧ r.hist j = r.hist n ++ t by
    obtain ⟨j, h1, h2⟩ := key
    refine ⟨j, h1, ?_⟩
    obtain ⟨t', h3, h4⟩ := r.segment h1
    rw [h2] at h3
    obtain rfl := List.append_cancel_left h3
    exact exec_det h4 e
  induction m, h using Nat.le_induction generalizing u with
  | base =>
    refine ⟨n, Nat.le_refl _, ?_⟩
    have : t ++ u = [] := by simpa using hh
    simp_all
  | succ m h ih =>
    rw [r.hist_succ] at hh
    rcases r.move m with ⟨h3, _⟩ | ⟨a, o, h3, _⟩
    · rw [h3, Option.toList_none, List.append_nil] at hh
      exact ih hh
    · rw [h3, Option.toList_some] at hh
      rcases List.eq_nil_or_concat u with rfl | ⟨u', x, rfl⟩
      · refine ⟨m + 1, by omega, ?_⟩
        rw [r.hist_succ, h3, Option.toList_some, hh, List.append_nil]
      · refine ih (u := u') ?_
        have h5 : r.hist m ++ [(a, o)] = (r.hist n ++ (t ++ u')) ++ [x] := by
          rw [hh]; simp
        exact (List.append_inj' h5 rfl).1

theorem run_calls (r : Run dg) (hf : r.Fair) (hr : r.Read) (hb : r.Settles) (k n : Nat) :
    ∃ m, n ≤ m ∧ ((r.state m).stubs k).pc = .idle := by
  apply Classical.byContradiction
  intro hc
  have h1 : ∀ m, n ≤ m → ((r.state m).stubs k).pc ≠ .idle := fun m hm h => hc ⟨m, hm, h⟩
  suffices key : ∀ N, ∃ m, N ≤ m ∧ r.Does m (· = .stubStep k) by
    obtain ⟨m, t, h4, h5, h6, h7⟩ := r.count (f := callSteps k)
      (fun t a o => by rw [callSteps_snoc]; omega)
      (fun t a o ha => by rw [callSteps_snoc, if_pos ha]; omega) key n 5
    obtain ⟨t₁, t₂, s₁, rfl, h8, h9⟩ := call_over h6 h7
    obtain ⟨j, h10, rfl⟩ := r.point h4 h5 h8
    exact h1 j h10 h9
  apply Classical.byContradiction
  intro hc'
  obtain ⟨N, hN⟩ : ∃ N, ∀ m, N ≤ m → ¬ r.Does m (· = .stubStep k) := by
    apply Classical.byContradiction
    intro h
    refine hc' fun N => Classical.byContradiction fun h2 => h ⟨N, fun m hm hd => h2 ⟨m, hm, hd⟩⟩
  -- the endpoint answers
  obtain ⟨M, hM, h2⟩ : ∃ M, max n N ≤ M ∧ ∀ a m u, ((r.state M).stubs k).pc ≠ .asked a m u := by
    rcases ep_goes hf hr hb with h | ⟨M, h⟩
    · obtain ⟨m, t, h4, h5, h6, h7⟩ := r.count (f := ownSteps)
        (fun t a o => (ownSteps_snoc t a o).1) (fun t a o => (ownSteps_snoc t a o).2) h (max n N) 54
      obtain ⟨t₁, t₂, s₁, rfl, h8, h9⟩ := C102_connect (k := k) (r.exec _) h6 h7
      obtain ⟨j, h10, rfl⟩ := r.point h4 h5 h8
      exact ⟨j, h10, h9⟩
    · refine ⟨max (max n N) M, Nat.le_max_left .., fun a m u h2 => ?_⟩
      obtain ⟨h3, h4⟩ := h (max (max n N) M) (Nat.le_max_right ..)
      rcases (asks_over (r.exec _)).1 k a m u h2 with ⟨b, h5⟩ | ⟨b, h5⟩
      · rw [h3] at h5; cases h5
      · rcases h4 with h4 | h4 <;> rw [h4] at h5 <;> cases h5
  -- from then on the call stays where it is
  have h3 : ∀ m, M ≤ m → ((r.state m).stubs k).pc = ((r.state M).stubs k).pc := by
    intro m hm
    induction m, hm using Nat.le_induction with
    | base => rfl
    | succ m hm ih =>
      rcases r.move m with ⟨_, h6⟩ | ⟨x, o, h6, h7⟩
      · rw [h6]; exact ih
      · have h8 : x ≠ .stubStep k := fun hx => hN m (by omega) ⟨x, o, h6, hx⟩
        have h9 := answer_cases (r.state m)
        have h10 := refuse_cases (r.state m)
        have h11 := h1 (m + 1) (by omega)
        have h12 := h1 m (by omega)
        rw [← ih] at h2 ⊢
        clear ih
        generalize r.state (m + 1) = z at *
        clear h1 hc hN hc'
        cases move_of_step h7 <;> first | rfl | grind [upd, stubAt_apply]
  obtain ⟨M', h4, h5⟩ := (hf.call k).off (N := M) fun m hm => hN m (by omega)
  cases hp : ((r.state M).stubs k).pc with
  | idle => exact h1 M (by omega) hp
  | check a x =>
    obtain ⟨m, h6, h7⟩ := peer_unlocked hf hb a M'
    have h8 := (h3 m (by omega)).trans hp
    refine h5 m h6 ?_
    by_cases h9 : ∃ c, (r.state m).peers.get a = some c ∧ (r.state m).connStrong c = true
    · obtain ⟨c, h9, h10⟩ := h9
      exact ⟨_, _, _, rfl, step_of_move (.checkOk k a x c h8 h7 h9 h10)⟩
    · have h10 : ∀ c, (r.state m).peers.get a = some c → (r.state m).connStrong c = false := by
        intro c h11
        cases h12 : (r.state m).connStrong c with
        | false => rfl
        | true => exact absurd ⟨c, h11, h12⟩ h9
      cases h11 : (r.state m).epStrong with
      | true => exact ⟨_, _, _, rfl, step_of_move (.checkAsk k a x h8 h7 h10 h11)⟩
      | false => exact ⟨_, _, _, rfl, step_of_move (.checkFail k a x h8 h7 h10 h11)⟩
  | asking a x =>
    obtain ⟨m, h6, h7⟩ := ep_room hf hr hb M'
    have h8 := (h3 m (by omega)).trans hp
    exact h5 m h6 ⟨_, _, _, rfl, step_of_move (.ask k a x h8 h7)⟩
  | asked a x u => exact h2 a x u hp
  | share a x c =>
    obtain ⟨m, h6, h7⟩ := peer_unlocked hf hb a M'
    have h8 := (h3 m (by omega)).trans hp
    exact h5 m h6 ⟨_, _, _, rfl, step_of_move (.stubShare k a x c h8 h7)⟩
  | enter a x =>
    obtain ⟨m, h6, h7⟩ := peer_unlocked hf hb a M'
    have h8 := (h3 m (by omega)).trans hp
    refine h5 m h6 ?_
    cases h9 : (r.state m).peers.get a with
    | none => exact ⟨_, _, _, rfl, step_of_move (.enterNone k a x h8 h7 h9)⟩
    | some c =>
      cases h10 : (r.state m).connStrong c with
      | true => exact ⟨_, _, _, rfl, step_of_move (.enterOk k a x c h8 h7 h9 h10)⟩
      | false => exact ⟨_, _, _, rfl, step_of_move (.enterDead k a x c h8 h7 h9 h10)⟩
  | sending a x c =>
    obtain ⟨m, h6, h7⟩ := stub_leaves hf.tasks k M'
    exact h7 a x c ((h3 m (by omega)).trans hp)

/-- **C104.** If no task and no call is passed over, and no handle stays full for ever, then every call
of `send_to` returns. -/
theorem C104_calls_partial (r : Run dg) (hf : r.Fair) (hr : r.Read) (hb : r.Settles) (k n : Nat) :
    ∃ m, n ≤ m ∧ inCall k (r.hist m) = false := by
  obtain ⟨m, h1, h2⟩ := run_calls r hf hr hb k n
  exact ⟨m, h1, (idle_iff (r.exec m) k).mp h2⟩

theorem run_messages (r : Run dg) (hf : r.FairTasks) (hr : r.Read) (hb : r.Settles) (c n : Nat) :
    ∃ m, n ≤ m ∧ (heard c (r.hist n) <+: settled c (r.hist m) ∨
      ((r.state m).conns c).alive = false) := by
  apply Classical.byContradiction
  intro hc
  have h1 : ∀ m, n ≤ m → ¬ heard c (r.hist n) <+: settled c (r.hist m) ∧
      ((r.state m).conns c).alive = true := by
    intro m hm
    refine ⟨fun h => hc ⟨m, hm, .inl h⟩, ?_⟩
    cases ha : ((r.state m).conns c).alive with
    | true => rfl
    | false => exact absurd ⟨m, hm, .inr ha⟩ hc
  have h2 : ∀ m, n ≤ m → ((r.state m).conns c).pc.pending ≠ [] := by
    intro m hm h3
    obtain ⟨h4, h5⟩ := h1 m hm
    have h6 := (line (r.exec m)).alive c h5
    rw [h3, List.append_nil] at h6
    obtain ⟨t, h7, -⟩ := r.segment hm
    apply h4
    rw [h6, h7]
    exact heard_prefix ..
  suffices key : ∀ N, ∃ m, N ≤ m ∧ r.Does m (· = .route c) by
    obtain ⟨m, t, h4, h5, h6, h7⟩ := r.count (f := routeSteps c)
      (fun t a o => by rw [routeSteps_snoc]; omega)
      (fun t a o ha => by rw [routeSteps_snoc, if_pos ha]; omega) key n _
    rcases packets_or_dead (r.exec n) h6 h7 with h8 | h8
    · rw [← h5] at h8
      exact (h1 m h4).1 h8
    · rw [(h1 m h4).2] at h8
      cases h8
  apply Classical.byContradiction
  intro hc'
  obtain ⟨N, hN⟩ : ∃ N, ∀ m, N ≤ m → ¬ r.Does m (· = .route c) := by
    apply Classical.byContradiction
    intro h
    refine hc' fun N => Classical.byContradiction fun h2 => h ⟨N, fun m hm hd => h2 ⟨m, hm, hd⟩⟩
  have h3 : ∀ m, max n N ≤ m → ((r.state m).conns c).pc = ((r.state (max n N)).conns c).pc := by
    intro m hm
    induction m, hm using Nat.le_induction with
    | base => rfl
    | succ m hm ih =>
      rcases r.move m with ⟨_, h6⟩ | ⟨x, o, h6, h7⟩
      · rw [h6]; exact ih
      · have h8 : x ≠ .route c := fun hx => hN m (by omega) ⟨x, o, h6, hx⟩
        have h11 := (h1 (m + 1) (by omega)).2
        have h12 := h2 m (by omega)
        have h13 := h2 (m + 1) (by omega)
        rw [← ih]
        clear ih
        generalize r.state (m + 1) = z at *
        clear h1 hc hN hc' h2
        cases move_of_step h7 <;> first | rfl | grind [upd, Conn.ended, newConn, RecvPc.pending]
  obtain ⟨M, h4, h5⟩ := (hf.route c).off (N := max n N) fun m hm => hN m (by omega)
  cases hp : ((r.state (max n N)).conns c).pc with
  | wait =>
    refine h2 (max n N) (by omega) ?_
    rw [hp]
    rfl
  | sending i x xs =>
    obtain ⟨m, h6, h7⟩ := conn_leaves hf hr c M
    exact h7 i x xs ((h3 m (by omega)).trans hp)
  | route ms =>
    cases ms with
    | nil =>
      refine h2 (max n N) (by omega) ?_
      rw [hp]
      rfl
    | cons x xs =>
      obtain ⟨m, h6, h7⟩ := iface_unlocked hf hr hb (InterfaceId.of x) M
      have h8 := (h3 m (by omega)).trans hp
      refine h5 m h6 ?_
      cases h9 : (r.state m).shared.get (InterfaceId.of x) with
      | none => exact ⟨_, _, _, rfl, step_of_move (.routeUnknown c x xs h8 h7 h9)⟩
      | some i =>
        cases h10 : (r.state m).ifStrong i with
        | true => exact ⟨_, _, _, rfl, step_of_move (.routeTo c x xs i h8 h7 h9 h10)⟩
        | false => exact ⟨_, _, _, rfl, step_of_move (.routeDead c x xs i h8 h7 h9 h10)⟩

/-- **C104.** If no task and no call is passed over, and no handle stays full for ever, then every
message received is handed to the handle of its interface or dropped, or the connection ends. -/
theorem C104_messages_partial (r : Run dg) (hf : r.Fair) (hr : r.Read) (hb : r.Settles) (c n : Nat) :
    ∃ m, n ≤ m ∧ (heard c (r.hist n) <+: settled c (r.hist m) ∨ ConnOver c (r.hist m)) := by
  by_cases hc : (r.state n).connCount ≤ c
  · refine ⟨n, Nat.le_refl _, .inl ?_⟩
    rw [((line (r.exec n)).fresh c hc).1]
    exact List.nil_prefix
  · obtain ⟨m, h1, h2⟩ := run_messages r hf hr hb c n
    obtain ⟨t, -, h3⟩ := r.segment h1
    exact ⟨m, h1, h2.imp id
      (over_of_dead (r.exec m) (Nat.lt_of_lt_of_le (by omega) (connCount_le h3)))⟩

/-! ### Runs that come to rest -/

/-- Every execution is the beginning of a run in which nothing happens afterwards. -/
theorem run_of_exec {tr : Trace} {s : State} (e : Exec (step dg) init tr s) :
    ∃ r : Run dg, ∀ n, tr.length ≤ n → r.state n = s ∧ r.hist n = tr ∧ r.act n = none := by
  induction e with
  | nil =>
    refine ⟨⟨fun _ => init, fun _ => none, rfl, fun _ => rfl⟩, fun n _ => ⟨rfl, ?_, rfl⟩⟩
    simp [Run.hist]
  | @snoc tr s₁ s₂ a o e hs ih =>
    obtain ⟨r, hr⟩ := ih
    have h0 := hr tr.length (Nat.le_refl _)
    have h1 : ∀ n, Next dg (if n ≤ tr.length then r.state n else s₂)
        (if n < tr.length then r.act n else if n = tr.length then some (a, o) else none)
        (if n + 1 ≤ tr.length then r.state (n + 1) else s₂) := by
      intro n
      rcases Nat.lt_trichotomy n tr.length with h | h | h
      · rw [if_pos (by omega), if_pos h, if_pos (by omega)]
        exact r.next n
      · subst h
        rw [if_pos (Nat.le_refl _), if_neg (by omega), if_pos rfl, if_neg (by omega), h0.1]
        exact hs
      · rw [if_neg (by omega), if_neg (by omega), if_neg (by omega), if_neg (by omega)]
        rfl
    let r' : Run dg := ⟨_, _, by simpa using r.start, h1⟩
    have h2 : ∀ n, n ≤ tr.length → r'.hist n = r.hist n := by
      intro n hn
      induction n with
      | zero => rfl
      | succ n ih =>
        rw [Run.hist_succ, Run.hist_succ, ih (by omega)]
        have : r'.act n = r.act n := if_pos (by omega)
        rw [this]
    have h3 : ∀ n, tr.length + 1 ≤ n → r'.act n = none := by
      intro n hn
      show (if _ then _ else _) = _
      rw [if_neg (by omega), if_neg (by omega)]
    refine ⟨r', fun n hn => ?_⟩
    rw [List.length_append, List.length_singleton] at hn
    refine ⟨if_neg (by omega), ?_, h3 n hn⟩
    induction n, hn using Nat.le_induction with
    | base =>
      rw [Run.hist_succ, h2 _ (Nat.le_refl _), h0.2.1]
      have : r'.act tr.length = some (a, o) := by
        show (if _ then _ else _) = _
        rw [if_neg (by omega), if_pos rfl]
      rw [this]
      rfl
    | succ n hn ih => rw [Run.hist_succ, ih, h3 n hn, Option.toList_none, List.append_nil]

/-- No task but perhaps the endpoint's, and no call, can go on, and no handle can be read from. -/
def resting (dg : Bool) (s : State) : Bool :=
  (List.range s.lisCount).all (fun l => (step dg s (.lisCmd l)).isNone) &&
  (List.range s.connCount).all (fun c => (step dg s (.route c)).isNone &&
    (step dg s (.connCmd c)).isNone && (step dg s (.sent c true)).isNone &&
    (step dg s (.sent c false)).isNone) &&
  (List.range s.stubCount).all (fun k => (step dg s (.stubStep k)).isNone &&
    (step dg s (.stubRecv k)).isNone) &&
  (List.range s.proxyCount).all (fun p => (step dg s (.proxyRecv p)).isNone)

/-- No task and no call can go on, and no handle can be read from. -/
def halted (dg : Bool) (s : State) : Bool :=
  (step dg s (.ep true)).isNone && (step dg s (.ep false)).isNone && resting dg s

/-- A run in which all but the endpoint task have come to rest is fair to them. -/
theorem resting_fair {tr : Trace} {s : State} (e : Exec (step dg) init tr s) (h : resting dg s = true) :
    ∃ r : Run dg, (∀ l, r.FairTo (· = .lisCmd l)) ∧ (∀ c, r.FairTo (· = .route c)) ∧
      (∀ c, r.FairTo (SendStep c)) ∧ (∀ k, r.FairTo (· = .stubStep k)) ∧ r.Settles ∧
      (∀ k, r.FairTo (· = .stubRecv k)) ∧ (∀ p, r.FairTo (· = .proxyRecv p)) ∧
      ∀ n, tr.length ≤ n → r.state n = s ∧ r.hist n = tr ∧ r.act n = none := by
  obtain ⟨r, hr⟩ := run_of_exec e
  have hg := (good_hist e).1.fresh
  simp only [resting, Bool.and_eq_true, List.all_eq_true, List.mem_range,
    Option.isNone_iff_eq_none] at h
  obtain ⟨⟨⟨h3, h4⟩, h5⟩, h6⟩ := h
  have key : ∀ P, ¬ Enabled dg s P → r.FairTo P := by
    intro P hP hio
    obtain ⟨n, hn, he⟩ := hio tr.length
    rw [(hr n hn).1] at he
    exact absurd he hP
  have none : ∀ {a : Action}, step dg s a = none → ∀ x o s', x = a → step dg s x ≠ some (s', o) := by
    rintro a h x o s' rfl h'
    rw [h] at h'
    cases h'
  refine ⟨r, fun l => key _ ?_, fun c => key _ ?_, fun c => key _ ?_, fun k => key _ ?_,
    ⟨tr.length, ?_⟩, fun k => key _ ?_, fun p => key _ ?_, hr⟩
  · rintro ⟨x, o, s', rfl, hx⟩
    by_cases hl : l < s.lisCount
    · exact none (h3 l hl) _ _ _ rfl hx
    · have := hg.liss l (Nat.not_lt.mp hl)
      cases move_of_step hx <;> simp_all
  · rintro ⟨x, o, s', rfl, hx⟩
    by_cases hl : c < s.connCount
    · exact none (h4 c hl).1.1.1 _ _ _ rfl hx
    · have := hg.conns c (Nat.not_lt.mp hl)
      cases move_of_step hx <;> simp_all
  · rintro ⟨x, o, s', hx', hx⟩
    by_cases hl : c < s.connCount
    · rcases hx' with rfl | ⟨ok, rfl⟩
      · exact none (h4 c hl).1.1.2 _ _ _ rfl hx
      · cases ok
        · exact none (h4 c hl).2 _ _ _ rfl hx
        · exact none (h4 c hl).1.2 _ _ _ rfl hx
    · have := hg.conns c (Nat.not_lt.mp hl)
      rcases hx' with rfl | ⟨ok, rfl⟩ <;> cases move_of_step hx <;> simp_all
  · rintro ⟨x, o, s', rfl, hx⟩
    by_cases hl : k < s.stubCount
    · exact none (h5 k hl).1 _ _ _ rfl hx
    · have := hg.stubs k (Nat.not_lt.mp hl)
      cases move_of_step hx <;> simp_all
  · rintro n hn ⟨a, o, h7, _⟩
    rw [(hr n hn).2.2] at h7
    cases h7
  · rintro ⟨x, o, s', rfl, hx⟩
    by_cases hl : k < s.stubCount
    · exact none (h5 k hl).2 _ _ _ rfl hx
    · have := hg.stubs k (Nat.not_lt.mp hl)
      generalize hy : Action.stubRecv k = y at hx
      cases move_of_step hx <;> simp_all
  · rintro ⟨x, o, s', rfl, hx⟩
    by_cases hl : p < s.proxyCount
    · exact none (h6 p hl) _ _ _ rfl hx
    · have := hg.proxies p (Nat.not_lt.mp hl)
      generalize hy : Action.proxyRecv p = y at hx
      cases move_of_step hx <;> simp_all

/-- A run that has come to rest is fair. -/
theorem halted_fair {tr : Trace} {s : State} (e : Exec (step dg) init tr s) (h : halted dg s = true) :
    ∃ r : Run dg, r.Fair ∧ r.Settles ∧ (∀ k, r.FairTo (· = .stubRecv k)) ∧
      (∀ p, r.FairTo (· = .proxyRecv p)) ∧
      ∀ n, tr.length ≤ n → r.state n = s ∧ r.hist n = tr := by
  simp only [halted, Bool.and_eq_true, Option.isNone_iff_eq_none] at h
  obtain ⟨⟨h1, h2⟩, h3⟩ := h
  obtain ⟨r, r1, r2, r3, r4, r5, r6, r7, r8⟩ := resting_fair e h3
  refine ⟨r, ⟨fun hio => ?_, r1, r2, r3, r4⟩, r5, r6, r7, fun n hn => ⟨(r8 n hn).1, (r8 n hn).2.1⟩⟩
  obtain ⟨n, hn, x, o, s', ⟨ok, rfl⟩, hx⟩ := hio tr.length
  rw [(r8 n hn).1] at hx
  cases ok
  · rw [h2] at hx; cases hx
  · rw [h1] at hx; cases hx

/-- A run in which all but the endpoint task have come to rest, and this one waits for the socket, is fair to the
tasks. -/
theorem awaiting_fair {tr : Trace} {s : State} (e : Exec (step dg) init tr s) (h : resting dg s = true)
    (hw : Awaits dg s) : ∃ r : Run dg, r.FairTasks ∧ r.Settles ∧ (∀ k, r.FairTo (· = .stubRecv k)) ∧
      (∀ p, r.FairTo (· = .proxyRecv p)) ∧
      ∀ n, tr.length ≤ n → r.state n = s ∧ r.hist n = tr ∧ r.act n = none := by
  obtain ⟨r, r1, r2, r3, r4, r5, r6, r7, r8⟩ := resting_fair e h
  refine ⟨r, ⟨fun hio => ?_, r1, r2, r3, r4⟩, r5, r6, r7, r8⟩
  obtain ⟨n, hn, -, hx⟩ := hio tr.length
  rw [(r8 n hn).1] at hx
  exact absurd hw hx

/-! ### A deadlock -/

/-- Stub 0 is sent seventeen messages. Before it reads them, it sends one to a new peer, and somebody
asks for the interface it serves. -/
def Spec.Ep.deadActions : List Action :=
  stuckActions.take 43 ++ [.serve ⟨1, 1⟩, .ep true, .stubSend 0 9 msgA, .stubStep 0, .stubStep 0]

/-- **C104** is false of users who read from a stub whenever they are not inside another call of it
(both take the stub mutably): `send_to` waits for the endpoint, the endpoint waits for a connection,
and the connection waits for the stub to be read from. None of them ever goes on, though no task is
passed over. -/
theorem C104_deadlock (dg : Bool) : ∃ r : Run dg, r.Fair ∧ r.Settles ∧
    (∀ k, r.FairTo (· = .stubRecv k)) ∧ (∀ p, r.FairTo (· = .proxyRecv p)) ∧
    ∃ k c n, ∀ m, n ≤ m →
      StubOpen k (r.hist m) ∧ inCall k (r.hist m) = true ∧
      ¬ requests (r.hist n) <+: answered (r.hist m) ∧
      ConnOpen c (r.hist m) ∧ ¬ heard c (r.hist n) <+: settled c (r.hist m) := by
  obtain ⟨tr, s, e, h⟩ := exec_by (step := step dg) (s := init) deadActions
    (fun tr s => halted dg s && decide ((s.stubs 0).alive = true ∧ (s.stubs 0).pc ≠ .idle ∧
      (answered tr).length < (requests tr).length ∧ (s.conns 0).alive = true ∧
      (s.conns 0).pc.pending.length = 1))
    (by cases dg <;> decide +kernel)
  rw [Bool.and_eq_true, decide_eq_true_iff] at h
  obtain ⟨r, h1, h2, h3, h4, h5⟩ := halted_fair e h.1
  refine ⟨r, h1, h2, h3, h4, 0, 0, tr.length, fun m hm => ?_⟩
  rw [(h5 m hm).2, (h5 _ (Nat.le_refl _)).2]
  obtain ⟨-, h6, h7, h8, h9, h10⟩ := h
  refine ⟨(stub_open_iff e 0).mp h6, (busy_iff e 0).mp h7, fun h => absurd h.length_le (by omega),
    (conn_open_iff e 0).mp h9, fun h => ?_⟩
  have := h.length_le
  rw [← (line e).alive 0 h9, List.length_append] at this
  omega

/-- **C104** is false: once a call of `send_to` waits for the endpoint, the endpoint for a connection
and the connection for the same stub, this stays so, whatever else happens, until the call is given up,
the stub is dropped or the connection ends. -/
theorem C104_for_ever {tr t : Trace} {s s' : State} {id : InterfaceId} {k c u : Nat} {a : Addr}
    {m x : Msg} {ms : List Msg} (e : Exec (step dg) init tr s) (h : Stuck id k c m ms s)
    (hp : (s.stubs k).pc = .asked a x u) (e' : Exec (step dg) s t s')
    (hn : ∀ y ∈ t, y.1 ≠ .stubCancel k ∧ y.1 ≠ .dropStub k ∧ y ≠ (.connCmd c, .ended) ∧
      y.1 ≠ .sent c false)
    (hb : InterfaceId.of m = id ∨ ∀ e ∈ t, ∀ x y, e.1 ≠ .hashId x y) :
    (s'.stubs k).pc = .asked a x u ∧ ownSteps t = 0 ∧ answered (tr ++ t) = answered tr ∧
      Stuck id k c m ms s' := by
  suffices key : (s'.stubs k).pc = .asked a x u ∧ ∀ y ∈ t, y.1 ≠ .stubRecv k by
    refine ⟨key.1, C76_hangs e h e' (fun y hy => ⟨key.2 y hy, (hn y hy).2⟩) hb⟩
  induction e' with
  | nil => exact ⟨hp, by simp⟩
  | @snoc t s₁ s₂ y o e₁ hs ih =>
    have hn1 := fun y hy => hn y (List.mem_append_left _ hy)
    have hb1 := hb.imp_right fun h x hx => h x (List.mem_append_left _ hx)
    obtain ⟨h1, h2⟩ := ih hn1 hb1
    obtain ⟨h3, -, -, -⟩ := hn (y, o) (List.mem_append_right _ (List.mem_singleton.mpr rfl))
    obtain ⟨-, h4, -⟩ := hn (y, o) (List.mem_append_right _ (List.mem_singleton.mpr rfl))
    obtain ⟨-, -, h5⟩ := C76_hangs e h e₁ (fun y hy => ⟨h2 y hy, (hn1 y hy).2⟩) hb1
    have h6 := (h5.pc_step (good_hist (e.append e₁)).1.fresh (move_of_step hs)).2
    have h7 : (s₂.stubs k).pc = .asked a x u ∧ y ≠ .stubRecv k := by
      clear hn hb hn1 hb1 h2 ih
      generalize hz : y = z at *
      cases move_of_step hs <;>
        first
        | exact absurd rfl (h6 _)
        | (refine ⟨h1, ?_⟩; simp; done)
        | grind [upd, stubAt_apply]
    refine ⟨h7.1, fun z hz => ?_⟩
    rcases List.mem_append.mp hz with hz | hz
    · exact h2 z hz
    · rw [List.mem_singleton.mp hz]
      exact h7.2

example : ∃ tr s, Exec (step true) init tr s ∧ Stuck ⟨1, 1⟩ 0 0 msgA [] s ∧
    (s.stubs 0).pc = .asked 9 msgA 0 := by
  obtain ⟨tr, s, e, h⟩ := exec_reaches (step := step true) (s := init) deadActions
    (fun s => decide (s.pc = .serveCheck ⟨1, 1⟩ ∧ (s.stubs 0).alive = true ∧
      ifCap ≤ (s.ifaces (s.stubs 0).iface).queue.length ∧
      (s.conns 0).pc = .sending (s.stubs 0).iface msgA [] ∧ (s.stubs 0).pc = .asked 9 msgA 0))
    (by decide +kernel)
  obtain ⟨h1, h2, h3, h4, h5⟩ := of_decide_eq_true h
  exact ⟨tr, s, e, ⟨.inl h1, h2, h3, h4, by rw [show InterfaceId.of msgA = ⟨1, 1⟩ by decide]⟩, h5⟩

/-- Requests, messages received and a message sent, and everything dealt with. -/
def Spec.Ep.liveActions : List Action :=
  sampleTrace.map (·.1) ++ [.route 1, .stubSend 0 8 msgA, .stubStep 0, .stubStep 0, .stubStep 0, .connCmd 0,
    .sent 0 true, .stubSend 0 9 msgA, .stubStep 0, .stubStep 0, .ep true, .ep true, .stubStep 0,
    .stubStep 0, .stubStep 0, .connCmd 2, .sent 2 true]

/-- A run that meets what `C104_requests_partial`, `C104_calls_partial`, `C104_messages_partial`,
`C104_sent` and `C104_send` ask for, with two requests, four messages received, two calls of `send_to`
and a proxy that stays. -/
example : ∃ (r : Run true) (n : Nat), r.Fair ∧ r.Read ∧ r.Settles ∧
    requests (r.hist n) = [.serve ⟨1, 1⟩, .proxy ⟨2, 1⟩ 7] ∧ heard 0 (r.hist n) = [msgA, msgB, msgC] ∧
    heard 1 (r.hist n) = [msgB'] ∧ accepted 0 (r.hist n) = [msgA] ∧ accepted 2 (r.hist n) = [msgA] ∧
    ∀ m, n ≤ m → ProxyOpen 0 (r.hist m) := by
  obtain ⟨tr, s, e, h⟩ := exec_by (step := step true) (s := init) liveActions
    (fun tr s => halted true s && decide (requests tr = [.serve ⟨1, 1⟩, .proxy ⟨2, 1⟩ 7] ∧
      settled 0 tr = [msgA, msgB, msgC] ∧ settled 1 tr = [msgB'] ∧ accepted 0 tr = [msgA] ∧
      accepted 2 tr = [msgA] ∧ ((s.conns 0).alive = true ∧ (s.conns 0).pc = .wait ∧
      (s.conns 1).alive = true ∧ (s.conns 1).pc = .wait ∧ (s.proxies 0).alive = true) ∧ s.stubCount = 1 ∧ s.proxyCount = 1 ∧
      (s.ifaces (s.stubs 0).iface).queue = [] ∧ (s.ifaces (s.proxies 0).iface).queue = []))
    (by decide +kernel)
  rw [Bool.and_eq_true, decide_eq_true_iff] at h
  obtain ⟨h0, h1, h2, h3, h4, h5, ⟨a0, p0, a1, p1, al⟩, h6, h7, h8, h9⟩ := h
  obtain ⟨r, hr, hs, -, -, he⟩ := halted_fair e h0
  have hg := (good_hist e).1.fresh
  refine ⟨r, tr.length, hr, ⟨fun k N => ⟨max N tr.length, Nat.le_max_left .., ?_⟩,
    fun p N => ⟨max N tr.length, Nat.le_max_left .., ?_⟩⟩, hs, ?_⟩
  · rw [(he _ (Nat.le_max_right ..)).1]
    intro hk
    have := stub_lt hg hk
    obtain rfl : k = 0 := by omega
    rw [h8]
    decide
  · rw [(he _ (Nat.le_max_right ..)).1]
    intro hk
    have := proxy_lt hg hk
    obtain rfl : p = 0 := by omega
    rw [h9]
    decide
  · rw [(he _ (Nat.le_refl _)).2]
    refine ⟨h1, ?_, ?_, h4, h5, fun m hm => by rw [(he m hm).2]; exact (proxy_open_iff e 0).mp al⟩
    · rw [← (line e).alive 0 a0, h2, p0]
      rfl
    · rw [← (line e).alive 1 a1, h3, p1]
      rfl

end Rsomeip
