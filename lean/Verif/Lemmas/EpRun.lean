import Verif.Spec.Fair
import Verif.Lemmas.EpQuiet
import Verif.Lemmas.EpWire
import Verif.Lemmas.EpCaps

/-! # Runs of endpoints -/

namespace Rsomeip.Rt.Ep

open Spec.Ep

variable {dg : Bool} {r : Run dg}

theorem _root_.Rsomeip.Spec.Ep.Run.move (r : Run dg) (n : Nat) :
    (r.act n = none ∧ r.state (n + 1) = r.state n) ∨
    ∃ a o, r.act n = some (a, o) ∧ step dg (r.state n) a = some (r.state (n + 1), o) := by
  have h := r.next n
  cases hx : r.act n with
  | none => rw [hx] at h; exact .inl ⟨rfl, h⟩
  | some x => rw [hx] at h; exact .inr ⟨x.1, x.2, rfl, h⟩

theorem _root_.Rsomeip.Spec.Ep.Run.hist_succ (r : Run dg) (n : Nat) :
    r.hist (n + 1) = r.hist n ++ (r.act n).toList := by
  rw [Run.hist, List.range_succ, List.filterMap_append, Run.hist]
  cases h : r.act n <;> simp [h]

/-- What happens between two points of time is an execution. -/
theorem _root_.Rsomeip.Spec.Ep.Run.segment (r : Run dg) {n m : Nat} (h : n ≤ m) :
    ∃ t, r.hist m = r.hist n ++ t ∧ Exec (step dg) (r.state n) t (r.state m) := by
  induction m, h using Nat.le_induction with
  | base => exact ⟨[], by simp, .nil⟩
  | succ m h ih =>
    obtain ⟨t, h1, h2⟩ := ih
    rw [r.hist_succ, h1]
    rcases r.move m with ⟨h3, h4⟩ | ⟨a, o, h3, h4⟩
    · exact ⟨t, by simp [h3], by rw [h4]; exact h2⟩
    · exact ⟨t ++ [(a, o)], by simp [h3], h2.snoc h4⟩

theorem _root_.Rsomeip.Spec.Ep.Run.exec (r : Run dg) (n : Nat) :
    Exec (step dg) init (r.hist n) (r.state n) := by
  obtain ⟨t, h1, h2⟩ := r.segment (Nat.zero_le n)
  rw [r.start] at h2
  rw [h1]
  exact h2

/-- What is kept by every step that is not one of some actions holds for ever if those do not
happen. -/
theorem _root_.Rsomeip.Spec.Ep.Run.stays (r : Run dg) {P : State → Prop} {N : Nat} (h : P (r.state N))
    (hs : ∀ n a o s s', N ≤ n → r.act n = some (a, o) → r.state n = s → P s →
      Move dg s a o s' → P s') :
    ∀ n, N ≤ n → P (r.state n) := by
  intro n hn
  induction n, hn using Nat.le_induction with
  | base => exact h
  | succ n hn ih =>
    rcases r.move n with ⟨h3, h4⟩ | ⟨a, o, h3, h4⟩
    · rw [h4]; exact ih
    · exact hs n a o _ _ hn h3 rfl ih (move_of_step h4)

/-- If some steps are not made any more, then from some point on they are not possible. -/
theorem _root_.Rsomeip.Spec.Ep.Run.FairTo.off {P : Action → Prop} (h : r.FairTo P) {N : Nat}
    (hn : ∀ n, N ≤ n → ¬ r.Does n P) : ∃ M, N ≤ M ∧ ∀ n, M ≤ n → ¬ Enabled dg (r.state n) P := by
  apply Classical.byContradiction
  intro hc
  have h1 : ∀ M, ∃ n, M ≤ n ∧ Enabled dg (r.state n) P := by
    intro M
    apply Classical.byContradiction
    intro hm
    refine hc ⟨max M N, Nat.le_max_right .., fun n hn he => hm ⟨n, ?_, he⟩⟩
    exact Nat.le_trans (Nat.le_max_left ..) hn
  obtain ⟨n, h2, h3⟩ := h h1 N
  exact hn n h2 h3

/-- Steps that are made again and again are made any number of times. -/
theorem _root_.Rsomeip.Spec.Ep.Run.count (r : Run dg) {P : Action → Prop} {f : Trace → Nat}
    (hf : ∀ t a o, f t ≤ f (t ++ [(a, o)])) (hp : ∀ t a o, P a → f t < f (t ++ [(a, o)]))
    (h : ∀ N, ∃ n, N ≤ n ∧ r.Does n P) (n K : Nat) :
    ∃ m t, n ≤ m ∧ r.hist m = r.hist n ++ t ∧ Exec (step dg) (r.state n) t (r.state m) ∧ K ≤ f t := by
  have hmono : ∀ u t, f t ≤ f (t ++ u) := by
    intro u
    induction u with
    | nil => intro t; simp
    | cons x u ih =>
      intro t
      have h1 := ih (t ++ [x])
      have h2 := hf t x.1 x.2
      rw [List.append_assoc] at h1
      exact Nat.le_trans h2 h1
  induction K with
  | zero =>
    exact ⟨n, [], Nat.le_refl _, by simp, .nil, Nat.zero_le _⟩
  | succ K ih =>
    obtain ⟨m, t, h1, h2, h3, h4⟩ := ih
    obtain ⟨m', h5, a, o, h6, h7⟩ := h m
    obtain ⟨u, h8, h9⟩ := r.segment h5
    rcases r.move m' with ⟨h10, _⟩ | ⟨a', o', h10, h11⟩
    · rw [h6] at h10; cases h10
    · rw [h6] at h10
      cases h10
      refine ⟨m' + 1, (t ++ u) ++ [(a, o)], by omega, ?_, (h3.append h9).snoc h11, ?_⟩
      · rw [r.hist_succ, h6, h8, h2]
        simp
      · have := hmono u t
        have := hp (t ++ u) a o h7
        omega

/-! ### Room in the queues of connections and listeners -/

/-- The queue of a connection that stays has room again and again. -/
theorem conn_room (hf : ∀ c, r.FairTo (SendStep c)) (c N : Nat) : ∃ n, N ≤ n ∧
    (((r.state n).conns c).alive = true → ((r.state n).conns c).cmds.length < connCap) := by
  apply Classical.byContradiction
  intro hc
  have h1 : ∀ n, N ≤ n → ((r.state n).conns c).alive = true ∧
      connCap ≤ ((r.state n).conns c).cmds.length := by
    intro n hn
    apply Classical.byContradiction
    intro h
    exact hc ⟨n, hn, fun ha => Nat.not_le.mp fun h2 => h ⟨ha, h2⟩⟩
  have h2 : ∀ n, N ≤ n → Enabled dg (r.state n) (SendStep c) := by
    intro n hn
    obtain ⟨h3, h4⟩ := h1 n hn
    cases ho : ((r.state n).conns c).out with
    | some b => exact ⟨.sent c true, _, _, .inr ⟨true, rfl⟩, step_of_move (.sentOk c b ho)⟩
    | none =>
      cases hq : ((r.state n).conns c).cmds with
      | nil => rw [hq] at h4; simp [connCap] at h4
      | cons x q =>
        cases x with
        | take id i => exact ⟨.connCmd c, _, _, .inl rfl, step_of_move (.cmdTake c id i q h3 ho hq)⟩
        | message m =>
          cases hb : outgoing m with
          | some b =>
            exact ⟨.connCmd c, _, _, .inl rfl, step_of_move (.cmdMessage c m q b h3 ho hq hb)⟩
          | none => exact ⟨.connCmd c, _, _, .inl rfl, step_of_move (.cmdPanic c m q h3 ho hq hb)⟩
  have h3 : ∀ n o, N ≤ n → r.act n ≠ some (.connCmd c, o) := by
    intro n o hn ha
    obtain ⟨h4, h5⟩ := h1 n hn
    obtain ⟨h6, h7⟩ := h1 (n + 1) (by omega)
    have h8 := (caps (r.exec n)).conn c
    rcases r.move n with ⟨h9, _⟩ | ⟨a, o', h9, h10⟩
    · rw [ha] at h9; cases h9
    · rw [ha] at h9
      cases h9
      generalize r.state (n + 1) = z at *
      cases move_of_step h10 <;> simp_all [upd, Conn.ended, connCap]
  have h4 := hf c (fun M => ⟨max M N, Nat.le_max_left .., h2 _ (Nat.le_max_right ..)⟩)
  obtain ⟨n, hn, a, o, h5, h6⟩ := h4 N
  have h7 : ((r.state (n + 1)).conns c).out = none := by
    rcases r.move n with ⟨h9, _⟩ | ⟨a', o', h9, h10⟩
    · rw [h5] at h9; cases h9
    · rw [h5] at h9
      cases h9
      have h11 := (h1 (n + 1) (by omega)).1
      rcases h6 with rfl | ⟨ok, rfl⟩
      · exact absurd h5 (h3 n o hn)
      · generalize r.state (n + 1) = z at *
        cases move_of_step h10 <;> simp_all [upd, Conn.ended]
  have h8 : ∀ m, n + 1 ≤ m → ((r.state m).conns c).out = none := by
    refine r.stays (P := fun s => (s.conns c).out = none) h7 ?_
    intro m a o s s' hm ha _ hp hmv
    have h12 : a ≠ .connCmd c := by
      rintro rfl
      exact h3 m o (by omega) ha
    cases hmv <;> first | exact hp | grind [upd, Conn.ended, newConn]
  obtain ⟨m, hm, a, o, h9, h10⟩ := h4 (n + 1)
  rcases h10 with rfl | ⟨ok, rfl⟩
  · exact h3 m o (by omega) h9
  · rcases r.move m with ⟨h11, _⟩ | ⟨a', o', h11, h12⟩
    · rw [h9] at h11; cases h11
    · rw [h9] at h11
      cases h11
      have h13 := h8 m hm
      generalize r.state (m + 1) = z at *
      cases move_of_step h12 <;> simp_all

/-- The queue of a listener that stays has room again and again. -/
theorem lis_room (hf : ∀ l, r.FairTo (· = .lisCmd l)) (l N : Nat) : ∃ n, N ≤ n ∧
    (((r.state n).liss l).alive = true → ((r.state n).liss l).cmds.length < lisCap) := by
  apply Classical.byContradiction
  intro hc
  have h1 : ∀ n, N ≤ n → ((r.state n).liss l).alive = true ∧
      lisCap ≤ ((r.state n).liss l).cmds.length := by
    intro n hn
    apply Decidable.byContradiction
    intro h
    exact hc ⟨n, hn, fun ha => Nat.not_le.mp fun h2 => h ⟨ha, h2⟩⟩
  have h2 : ∀ n, N ≤ n → Enabled dg (r.state n) (· = .lisCmd l) := by
    intro n hn
    obtain ⟨h3, h4⟩ := h1 n hn
    cases hq : ((r.state n).liss l).cmds with
    | nil => rw [hq] at h4; simp [lisCap] at h4
    | cons x q => exact ⟨.lisCmd l, _, _, rfl, step_of_move (.lisTake l x.1 x.2 q h3 hq)⟩
  obtain ⟨n, hn, a, o, h5, rfl⟩ :=
    hf l (fun M => ⟨max M N, Nat.le_max_left .., h2 _ (Nat.le_max_right ..)⟩) N
  obtain ⟨h6, h7⟩ := h1 (n + 1) (by omega)
  have h8 := (caps (r.exec n)).lis l
  rcases r.move n with ⟨h9, _⟩ | ⟨a, o', h9, h10⟩
  · rw [h5] at h9; cases h9
  · rw [h5] at h9
    cases h9
    generalize r.state (n + 1) = z at *
    cases move_of_step h10 <;> simp_all [upd, deadLis, lisCap]
    omega

/-! ### Locks of addresses -/

/-- A run in which the socket answers too is one in which no task is passed over. -/
theorem _root_.Rsomeip.Spec.Ep.Run.Fair.tasks (hf : r.Fair) : r.FairTasks :=
  ⟨fun h => hf.ep fun N => by obtain ⟨n, h1, h2, -⟩ := h N; exact ⟨n, h1, h2⟩, hf.lis, hf.route, hf.send, hf.call⟩

instance : Coe r.Fair r.FairTasks := ⟨fun h => h.tasks⟩

/-- A task that makes no step from some point on is not able to, or waits for the socket. -/
theorem ep_off (hf : r.FairTasks) {N : Nat} (h : ∀ n, N ≤ n → ¬ r.Does n EpStep) :
    ∃ M, N ≤ M ∧ ∀ n, M ≤ n → Enabled dg (r.state n) EpStep → Awaits dg (r.state n) := by
  apply Classical.byContradiction
  intro hc
  obtain ⟨n, h1, h2⟩ := hf.ep (fun M => by
    apply Classical.byContradiction
    intro h1
    refine hc ⟨max N M, Nat.le_max_left .., fun n h2 h3 => ?_⟩
    apply Classical.byContradiction
    intro h4
    exact h1 ⟨n, by omega, h3, h4⟩) N
  exact h n h1 h2

/-- A call of `send_to` that waits for room in a queue does not wait for ever. -/
theorem stub_leaves (hf : r.FairTasks) (k N : Nat) :
    ∃ n, N ≤ n ∧ ∀ a m c, ((r.state n).stubs k).pc ≠ .sending a m c := by
  apply Classical.byContradiction
  intro hc
  have h1 : ∀ n, N ≤ n → ∃ a m c, ((r.state n).stubs k).pc = .sending a m c := by
    intro n hn
    apply Classical.byContradiction
    intro h
    exact hc ⟨n, hn, fun a m c hp => h ⟨a, m, c, hp⟩⟩
  obtain ⟨a, m, c, h2⟩ := h1 N (Nat.le_refl _)
  have h3 : ∀ n, N ≤ n → ¬ r.Does n (· = .stubStep k) := by
    rintro n hn ⟨_, o, ha, rfl⟩
    obtain ⟨a, m, c, h4⟩ := h1 n hn
    obtain ⟨a', m', c', h5⟩ := h1 (n + 1) (by omega)
    rcases r.move n with ⟨h9, _⟩ | ⟨a, o', h9, h10⟩
    · rw [ha] at h9; cases h9
    · rw [ha] at h9
      cases h9
      generalize r.state (n + 1) = z at *
      cases move_of_step h10 <;> simp_all [stubAt_apply]
  have h4 : ∀ n, N ≤ n → ((r.state n).stubs k).pc = .sending a m c := by
    intro n hn
    induction n, hn using Nat.le_induction with
    | base => exact h2
    | succ n hn ih =>
      rcases r.move n with ⟨_, h6⟩ | ⟨x, o, h6, h7⟩
      · rw [h6]; exact ih
      · obtain ⟨a', m', c', h5⟩ := h1 (n + 1) (by omega)
        have h8 : x ≠ .stubStep k := fun hx => h3 n hn ⟨x, o, h6, hx⟩
        have h9 := answer_cases (r.state n)
        have h10 := refuse_cases (r.state n)
        generalize r.state (n + 1) = z at *
        cases move_of_step h7 <;> first | exact ih | grind [upd, stubAt_apply]
  obtain ⟨M, h5, h6⟩ := (hf.call k).off h3
  obtain ⟨n, h7, h8⟩ := conn_room hf.send c M
  refine h6 n h7 ?_
  have h9 := h4 n (by omega)
  cases ha : ((r.state n).conns c).alive with
  | true => exact ⟨_, _, _, rfl, step_of_move (.sendOk k a m c h9 ha (h8 ha))⟩
  | false => exact ⟨_, _, _, rfl, step_of_move (.sendDead k a m c h9 ha)⟩

/-- The entry of an address is not locked for ever. -/
theorem peer_unlocked (hf : r.FairTasks) (hb : r.Settles) (a : Addr) (N : Nat) :
    ∃ n, N ≤ n ∧ (r.state n).peerLocked a = false := by
  apply Classical.byContradiction
  intro hc
  have h1 : ∀ n, N ≤ n → (r.state n).peerLocked a = true := by
    intro n hn
    cases h : (r.state n).peerLocked a with
    | true => rfl
    | false => exact absurd ⟨n, hn, h⟩ hc
  obtain ⟨B, hB⟩ := hb
  let M := max N B
  -- nobody who does not hold the lock gets it
  have h2 : ∀ k n, M ≤ n →
      (∀ b m c, ((r.state n).stubs k).pc = .sending b m c →
        (r.state n).peerBucket b ≠ (r.state n).peerBucket a) →
      ∀ n', n ≤ n' → ∀ b m c, ((r.state n').stubs k).pc = .sending b m c →
        (r.state n').peerBucket b ≠ (r.state n').peerBucket a := by
    intro k n hn h
    refine r.stays (P := fun s => ∀ b m c, (s.stubs k).pc = .sending b m c →
      s.peerBucket b ≠ s.peerBucket a) h ?_
    intro n' x o s s' hn' hx he hp hmv b m c hk
    have h3 := h1 n' (by omega)
    rw [he] at h3
    have h4 : ¬ ((∃ i j, x = .hashId i j) ∨ ∃ b c, x = .hashAddr b c) :=
      fun h => hB n' (by omega) ⟨x, o, hx, h⟩
    have h5 : ∀ b, s.peerLocked b = false → s.peerBucket b ≠ s.peerBucket a := by
      intro b hl he
      rw [State.peerLocked] at hl h3
      rw [he] at hl
      rw [hl] at h3
      cases h3
    have h9 := answer_cases s
    have h10 := refuse_cases s
    have hp := hp b m c
    clear hc h1 h he
    cases hmv <;> first | exact hp hk | grind [upd, stubAt_apply]
  -- everybody gives it back
  have h3 : ∀ K, ∃ n, M ≤ n ∧ ∀ k, k < K → ∀ n', n ≤ n' → ∀ b m c,
      ((r.state n').stubs k).pc = .sending b m c →
        (r.state n').peerBucket b ≠ (r.state n').peerBucket a := by
    intro K
    induction K with
    | zero => exact ⟨M, Nat.le_refl _, fun k hk => absurd hk (Nat.not_lt_zero _)⟩
    | succ K ih =>
      obtain ⟨n, h4, h5⟩ := ih
      obtain ⟨n₁, h6, h7⟩ := stub_leaves hf K n
      refine ⟨n₁, by omega, ?_⟩
      intro k hk n' hn'
      rcases Nat.lt_succ_iff_lt_or_eq.mp hk with hk | rfl
      · exact h5 k hk n' (by omega)
      · exact h2 k n₁ (by omega) (fun b m c h => absurd h (h7 b m c)) n' hn'
  obtain ⟨n, h4, h5⟩ := h3 ((r.state M).stubCount)
  obtain ⟨k, b, m, c, h6, h7⟩ :=
    (peerLocked_iff (good_hist (r.exec n)).1.fresh a).mp (h1 n (by omega))
  by_cases hk : k < (r.state M).stubCount
  · exact h5 k hk n (Nat.le_refl _) b m c h6 h7
  · refine h2 k M (Nat.le_refl _) ?_ n h4 b m c h6 h7
    intro b m c h
    rw [(good_hist (r.exec M)).1.fresh.stubs k (Nat.not_lt.mp hk)] at h
    cases h

/-! ### Locks of interfaces -/

/-- The endpoint task does not keep the receiver of a channel for ever. -/
theorem handed (hf : r.FairTasks) (i N : Nat) : ∃ n, N ≤ n ∧ (r.state n).pc.holds i = false := by
  apply Classical.byContradiction
  intro hc
  have h1 : ∀ n, N ≤ n → (r.state n).pc.holds i = true := by
    intro n hn
    cases h : (r.state n).pc.holds i with
    | true => rfl
    | false => exact absurd ⟨n, hn, h⟩ hc
  have h3 : ∀ n, N ≤ n → ¬ r.Does n EpStep := by
    rintro n hn ⟨_, o, ha, ok, rfl⟩
    have h4 := h1 n hn
    have h5 := h1 (n + 1) (by omega)
    rcases r.move n with ⟨h9, _⟩ | ⟨a, o', h9, h10⟩
    · rw [ha] at h9; cases h9
    · rw [ha] at h9
      cases h9
      generalize r.state (n + 1) = z at *
      cases move_of_step h10 <;> simp_all [EpPc.holds]
  have h4 : ∀ n, N ≤ n → (r.state n).pc = (r.state N).pc := by
    refine r.stays (P := fun s => s.pc = (r.state N).pc) rfl ?_
    intro n a o s s' hn ha _ hp hmv
    have h5 : ¬ EpStep a := fun h => h3 n hn ⟨a, o, ha, h⟩
    cases hmv <;> first | exact hp | exact absurd ⟨_, rfl⟩ h5
  obtain ⟨M, h5, h6⟩ := ep_off hf h3
  have h7 := h1 N (Nat.le_refl _)
  cases hp : (r.state N).pc with
  | serveTake id l j =>
    obtain ⟨n, h8, h9⟩ := lis_room hf.lis l M
    have h10 := (h4 n (by omega)).trans hp
    refine h6 n h8 ?_ (by simp only [step, ep, h10])
    cases ha : ((r.state n).liss l).alive with
    | true => exact ⟨_, _, _, ⟨true, rfl⟩, step_of_move (.serveTake true id l j h10 ha (h9 ha))⟩
    | false => exact ⟨_, _, _, ⟨true, rfl⟩, step_of_move (.serveClosed true id l j h10 ha)⟩
  | proxyTake id a c j =>
    obtain ⟨n, h8, h9⟩ := conn_room hf.send c M
    have h10 := (h4 n (by omega)).trans hp
    refine h6 n h8 ?_ (by simp only [step, ep, h10])
    cases ha : ((r.state n).conns c).alive with
    | true => exact ⟨_, _, _, ⟨true, rfl⟩, step_of_move (.proxyTake true id a c j h10 ha (h9 ha))⟩
    | false => exact ⟨_, _, _, ⟨true, rfl⟩, step_of_move (.proxyClosed true id a c j h10 ha)⟩
  | _ => rw [hp] at h7; simp [EpPc.holds] at h7

/-- The queue of a channel that has a receiver has room again and again. -/
theorem chan_room (hf : r.FairTasks) (hr : r.Read) (i N : Nat) : ∃ n, N ≤ n ∧
    (((r.state n).ifaces i).rx = true → ((r.state n).ifaces i).queue.length < ifCap) := by
  apply Classical.byContradiction
  intro hc
  have h1 : ∀ n, N ≤ n → ((r.state n).ifaces i).rx = true ∧
      ifCap ≤ ((r.state n).ifaces i).queue.length := by
    intro n hn
    apply Decidable.byContradiction
    intro h
    exact hc ⟨n, hn, fun ha => Nat.not_le.mp fun h2 => h ⟨ha, h2⟩⟩
  obtain ⟨n, h2, h3⟩ := handed hf i N
  obtain ⟨x, h4⟩ := (good_hist (r.exec n)).1.readers.some i (h1 n h2).1
  cases x with
  | task => simp only [Reads] at h4; rw [h3] at h4; cases h4
  | stub k =>
    have h5 : ∀ m, n ≤ m → ((r.state m).stubs k).alive = true ∧ ((r.state m).stubs k).iface = i := by
      refine r.stays (P := fun s => (s.stubs k).alive = true ∧ (s.stubs k).iface = i) h4 ?_
      intro m a o s s' hm ha hs hp hmv
      have h6 := (h1 (m + 1) (by omega)).1
      have h7 := stub_lt (good_hist (r.exec m)).1.fresh (k := k) (by rw [hs]; exact hp.1)
      rcases r.move m with ⟨h8, _⟩ | ⟨a', o', h8, h9⟩
      · rw [ha] at h8; cases h8
      · rw [ha] at h8
        cases h8
        rw [hs] at h7 h9
        rw [step_of_move hmv] at h9
        obtain ⟨h9, _⟩ := Prod.mk.inj (Option.some.inj h9)
        rw [← h9] at h6
        have h11 := answer_cases s
        have h12 := refuse_cases s
        clear h9 h1 hc hs
        cases hmv <;> first | exact hp | grind [upd, stubAt_apply, Iface.drop]
    obtain ⟨m, h6, h7⟩ := hr.stubs k n
    obtain ⟨h8, h9⟩ := h5 m h6
    have h10 := h7 h8
    have h11 := (h1 m (by omega)).2
    rw [h9] at h10
    simp only [ifCap] at h11
    omega
  | proxy p =>
    have h5 : ∀ m, n ≤ m → ((r.state m).proxies p).alive = true ∧ ((r.state m).proxies p).iface = i := by
      refine r.stays (P := fun s => (s.proxies p).alive = true ∧ (s.proxies p).iface = i) h4 ?_
      intro m a o s s' hm ha hs hp hmv
      have h6 := (h1 (m + 1) (by omega)).1
      have h7 := proxy_lt (good_hist (r.exec m)).1.fresh (p := p) (by rw [hs]; exact hp.1)
      rcases r.move m with ⟨h8, _⟩ | ⟨a', o', h8, h9⟩
      · rw [ha] at h8; cases h8
      · rw [ha] at h8
        cases h8
        rw [hs] at h7 h9
        rw [step_of_move hmv] at h9
        obtain ⟨h9, _⟩ := Prod.mk.inj (Option.some.inj h9)
        rw [← h9] at h6
        clear h9 h1 hc hs
        cases hmv <;> first | exact hp | grind [upd, Iface.drop]
    obtain ⟨m, h6, h7⟩ := hr.proxies p n
    obtain ⟨h8, h9⟩ := h5 m h6
    have h10 := h7 h8
    have h11 := (h1 m (by omega)).2
    rw [h9] at h10
    simp only [ifCap] at h11
    omega

/-- A connection that waits for room in a queue does not wait for ever. -/
theorem conn_leaves (hf : r.FairTasks) (hr : r.Read) (c N : Nat) :
    ∃ n, N ≤ n ∧ ∀ i m ms, ((r.state n).conns c).pc ≠ .sending i m ms := by
  apply Classical.byContradiction
  intro hc
  have h1 : ∀ n, N ≤ n → ∃ i m ms, ((r.state n).conns c).pc = .sending i m ms := by
    intro n hn
    apply Classical.byContradiction
    intro h
    exact hc ⟨n, hn, fun a m c hp => h ⟨a, m, c, hp⟩⟩
  obtain ⟨i, m, ms, h2⟩ := h1 N (Nat.le_refl _)
  have h3 : ∀ n, N ≤ n → ¬ r.Does n (· = .route c) := by
    rintro n hn ⟨_, o, ha, rfl⟩
    obtain ⟨i, m, ms, h4⟩ := h1 n hn
    obtain ⟨i', m', ms', h5⟩ := h1 (n + 1) (by omega)
    rcases r.move n with ⟨h9, _⟩ | ⟨a, o', h9, h10⟩
    · rw [ha] at h9; cases h9
    · rw [ha] at h9
      cases h9
      generalize r.state (n + 1) = z at *
      cases move_of_step h10 <;> simp_all [upd]
  have h4 : ∀ n, N ≤ n → ((r.state n).conns c).pc = .sending i m ms := by
    intro n hn
    induction n, hn using Nat.le_induction with
    | base => exact h2
    | succ n hn ih =>
      rcases r.move n with ⟨_, h6⟩ | ⟨x, o, h6, h7⟩
      · rw [h6]; exact ih
      · obtain ⟨a', m', c', h5⟩ := h1 (n + 1) (by omega)
        have h8 : x ≠ .route c := fun hx => h3 n hn ⟨x, o, h6, hx⟩
        generalize r.state (n + 1) = z at *
        cases move_of_step h7 <;> first | exact ih | grind [upd, Conn.ended, newConn]
  obtain ⟨M, h5, h6⟩ := (hf.route c).off h3
  obtain ⟨n, h7, h8⟩ := chan_room hf hr i M
  refine h6 n h7 ?_
  have h9 := h4 n (by omega)
  cases ha : ((r.state n).ifaces i).rx with
  | true => exact ⟨_, _, _, rfl, step_of_move (.put c i m ms h9 ha (h8 ha))⟩
  | false => exact ⟨_, _, _, rfl, step_of_move (.putClosed c i m ms h9 ha)⟩

theorem ifLocked_iff {s : State} (hf : Fresh s) (id : Someip.InterfaceId) : s.ifLocked id = true ↔
    ∃ c i m ms, (s.conns c).pc = .sending i m ms ∧
      s.ifBucket (Someip.InterfaceId.of m) = s.ifBucket id := by
  simp only [State.ifLocked, List.any_eq_true, List.mem_range]
  constructor
  · rintro ⟨c, _, h⟩
    cases hp : (s.conns c).pc with
    | sending i m ms => simp only [hp, decide_eq_true_eq] at h; exact ⟨c, i, m, ms, hp, h⟩
    | _ => simp [hp] at h
  · rintro ⟨c, i, m, ms, h, hb⟩
    refine ⟨c, ?_, by simp [h, hb]⟩
    apply Decidable.byContradiction
    intro hn
    rw [hf.conns c (Nat.not_lt.mp hn)] at h
    cases h

/-- The entry of an interface is not locked for ever. -/
theorem iface_unlocked (hf : r.FairTasks) (hr : r.Read) (hb : r.Settles) (id : Someip.InterfaceId)
    (N : Nat) : ∃ n, N ≤ n ∧ (r.state n).ifLocked id = false := by
  apply Classical.byContradiction
  intro hc
  have h1 : ∀ n, N ≤ n → (r.state n).ifLocked id = true := by
    intro n hn
    cases h : (r.state n).ifLocked id with
    | true => rfl
    | false => exact absurd ⟨n, hn, h⟩ hc
  obtain ⟨B, hB⟩ := hb
  let M := max N B
  have h2 : ∀ c n, M ≤ n →
      (∀ i m ms, ((r.state n).conns c).pc = .sending i m ms →
        (r.state n).ifBucket (Someip.InterfaceId.of m) ≠ (r.state n).ifBucket id) →
      ∀ n', n ≤ n' → ∀ i m ms, ((r.state n').conns c).pc = .sending i m ms →
        (r.state n').ifBucket (Someip.InterfaceId.of m) ≠ (r.state n').ifBucket id := by
    intro c n hn h
    refine r.stays (P := fun s => ∀ i m ms, (s.conns c).pc = .sending i m ms →
      s.ifBucket (Someip.InterfaceId.of m) ≠ s.ifBucket id) h ?_
    intro n' x o s s' hn' hx he hp hmv i m ms hk
    have h3 := h1 n' (by omega)
    rw [he] at h3
    have h4 : ¬ ((∃ i j, x = .hashId i j) ∨ ∃ b c, x = .hashAddr b c) :=
      fun h => hB n' (by omega) ⟨x, o, hx, h⟩
    have h5 : ∀ b, s.ifLocked b = false → s.ifBucket b ≠ s.ifBucket id := by
      intro b hl he
      rw [State.ifLocked] at hl h3
      rw [he] at hl
      rw [hl] at h3
      cases h3
    have hp := hp i m ms
    clear hc h1 h he
    cases hmv <;> first | exact hp hk | grind [upd, Conn.ended, newConn]
  have h3 : ∀ K, ∃ n, M ≤ n ∧ ∀ c, c < K → ∀ n', n ≤ n' → ∀ i m ms,
      ((r.state n').conns c).pc = .sending i m ms →
        (r.state n').ifBucket (Someip.InterfaceId.of m) ≠ (r.state n').ifBucket id := by
    intro K
    induction K with
    | zero => exact ⟨M, Nat.le_refl _, fun k hk => absurd hk (Nat.not_lt_zero _)⟩
    | succ K ih =>
      obtain ⟨n, h4, h5⟩ := ih
      obtain ⟨n₁, h6, h7⟩ := conn_leaves hf hr K n
      refine ⟨n₁, by omega, ?_⟩
      intro k hk n' hn'
      rcases Nat.lt_succ_iff_lt_or_eq.mp hk with hk | rfl
      · exact h5 k hk n' (by omega)
      · exact h2 k n₁ (by omega) (fun b m c h => absurd h (h7 b m c)) n' hn'
  obtain ⟨n, h4, h5⟩ := h3 ((r.state M).connCount)
  obtain ⟨c, i, m, ms, h6, h7⟩ :=
    (ifLocked_iff (good_hist (r.exec n)).1.fresh id).mp (h1 n (by omega))
  by_cases hk : c < (r.state M).connCount
  · exact h5 c hk n (Nat.le_refl _) i m ms h6 h7
  · refine h2 c M (Nat.le_refl _) ?_ n h4 i m ms h6 h7
    intro i m ms h
    rw [(good_hist (r.exec M)).1.fresh.conns c (Nat.not_lt.mp hk)] at h
    cases h

/-! ### The endpoint task -/

/-- The endpoint task goes on for ever, has nothing left to do, or waits for the socket for ever. -/
theorem ep_goes_or_awaits (hf : r.FairTasks) (hr : r.Read) (hb : r.Settles) :
    (∀ N, ∃ n, N ≤ n ∧ r.Does n EpStep) ∨
    (∃ N, ∀ n, N ≤ n → (r.state n).cmds = [] ∧ ((r.state n).pc = .idle ∨ (r.state n).pc = .stopped)) ∨
    ∃ N, (∀ n, N ≤ n → (r.state n).pc = (r.state N).pc) ∧ ∀ n, N ≤ n → Awaits dg (r.state n) := by
  apply Classical.or_iff_not_imp_left.mpr
  intro hn
  apply Classical.or_iff_not_imp_right.mpr
  intro hw
  simp only [not_forall, not_exists, not_and] at hn
  obtain ⟨N, h3⟩ := hn
  obtain ⟨M, h5, h6⟩ := ep_off hf h3
  have h4 : ∀ n, N ≤ n → (r.state n).pc = (r.state N).pc := by
    refine r.stays (P := fun s => s.pc = (r.state N).pc) rfl ?_
    intro n a o s s' hn ha _ hp hmv
    have h5 : ¬ EpStep a := fun h => h3 n hn ⟨a, o, ha, h⟩
    cases hmv <;> first | exact hp | exact absurd ⟨_, rfl⟩ h5
  obtain ⟨W, hW, hw⟩ : ∃ n, M ≤ n ∧ ¬ Awaits dg (r.state n) := by
    apply Classical.byContradiction
    intro h
    refine hw ⟨M, fun n hn => (h4 n (by omega)).trans (h4 M h5).symm, fun n hn => ?_⟩
    apply Classical.byContradiction
    intro ha
    exact h ⟨n, hn, ha⟩
  have h7 : ∀ n {o s'}, M ≤ n → step dg (r.state n) (.ep true) = step dg (r.state n) (.ep false) →
      ¬ Move dg (r.state n) (.ep true) o s' :=
    fun n o s' hn he hm => h6 n hn ⟨_, _, _, ⟨true, rfl⟩, step_of_move hm⟩ he
  have hw : step dg (r.state W) (.ep true) = step dg (r.state W) (.ep false) := Classical.not_not.mp hw
  have h8 : ∀ id, ∃ n, M ≤ n ∧ (r.state n).pc = (r.state N).pc ∧ (r.state n).ifLocked id = false := by
    intro id
    obtain ⟨n, h8, h9⟩ := iface_unlocked hf hr hb id M
    exact ⟨n, h8, h4 n (by omega), h9⟩
  cases hp : (r.state N).pc with
  | idle =>
    refine ⟨M, fun n hn => ⟨?_, .inl ((h4 n (by omega)).trans hp)⟩⟩
    have h9 := (h4 n (by omega)).trans hp
    cases hq : (r.state n).cmds with
    | nil => rfl
    | cons x q =>
      cases x with
      | serve id => exact absurd (.epServe true id q h9 hq) (h7 n hn (by simp only [step, ep, h9]))
      | proxy id a => exact absurd (.epProxy true id a q h9 hq) (h7 n hn (by simp only [step, ep, h9]))
      | connect k a t => exact absurd (.epConnect true k a t q h9 hq) (h7 n hn (by simp only [step, ep, h9]))
  | stopped =>
    refine ⟨M, fun n hn => ?_⟩
    have h9 := (h4 n (by omega)).trans hp
    exact ⟨((asks_over (r.exec n)).2 h9).1, .inr h9⟩
  | serveCheck id =>
    obtain ⟨n, h9, h10, h11⟩ := h8 id
    rw [hp] at h10
    cases hk : (r.state n).known id with
    | true => exact absurd (.serveExists true id h10 h11 hk) (h7 n h9 (by simp only [step, ep, h10]))
    | false => exact absurd (.serveGo true id h10 h11 hk) (h7 n h9 (by simp only [step, ep, h10]))
  | serveListen id =>
    have h10 := (h4 W (by omega)).trans hp
    by_cases hl : ∀ l, (r.state W).listener = some l → (r.state W).lisStrong l = false
    · exact absurd (.serveNew id h10 hl) (h7 W hW hw)
    · have ⟨l, hl1, hl2⟩ : ∃ l, (r.state W).listener = some l ∧ (r.state W).lisStrong l = true := by
        simpa using hl
      exact absurd (.serveOld true id l h10 hl1 hl2) (h7 W hW hw)
  | serveShare id l =>
    obtain ⟨n, h9, h10, h11⟩ := h8 id
    exact absurd (.serveShare true id l (h10.trans hp) h11) (h7 n h9 (by simp only [step, ep, h10.trans hp]))
  | serveTake id l i =>
    obtain ⟨n, h9, h10⟩ := handed hf i M
    rw [h4 n (by omega), hp] at h10
    simp [EpPc.holds] at h10
  | proxyCheck id a =>
    obtain ⟨n, h9, h10, h11⟩ := h8 id
    rw [hp] at h10
    cases hk : (r.state n).known id with
    | true => exact absurd (.proxyExists true id a h10 h11 hk) (h7 n h9 (by simp only [step, ep, h10]))
    | false => exact absurd (.proxyGo true id a h10 h11 hk) (h7 n h9 (by simp only [step, ep, h10]))
  | proxyGet id a =>
    obtain ⟨n, h9, h11⟩ := peer_unlocked hf hb a M
    have h10 := (h4 n (by omega)).trans hp
    by_cases hc : ∀ c, (r.state n).peers.get a = some c → (r.state n).connStrong c = false
    · exact absurd (.proxyMissing true id a h10 h11 hc) (h7 n h9 (by simp only [step, ep, h10]))
    · have ⟨c, hc1, hc2⟩ : ∃ c, (r.state n).peers.get a = some c ∧ (r.state n).connStrong c = true := by
        simpa using hc
      exact absurd (.proxyFound true id a c h10 h11 hc1 hc2) (h7 n h9 (by simp only [step, ep, h10]))
  | proxyConnect id a => exact absurd (.proxyConnect id a ((h4 W (by omega)).trans hp)) (h7 W hW hw)
  | proxyShare id a c =>
    obtain ⟨n, h9, h10, h11⟩ := h8 id
    exact absurd (.proxyShare true id a c (h10.trans hp) h11) (h7 n h9 (by simp only [step, ep, h10.trans hp]))
  | proxyTake id a c i =>
    obtain ⟨n, h9, h10⟩ := handed hf i M
    rw [h4 n (by omega), hp] at h10
    simp [EpPc.holds] at h10
  | connect k a t =>
    have h10 := (h4 W (by omega)).trans hp
    cases dg with
    | true => exact absurd (.connectOk k a t h10 rfl) (h7 W hW hw)
    | false =>
      by_cases hk : ∃ b m, ((r.state W).stubs k).pc = .asked b m t
      · exact absurd (.connectRefused true k a t h10 rfl hk) (h7 W hW hw)
      · exact absurd (.connectStale true k a t h10 nofun hk) (h7 W hW hw)

/-- A task that waits for the socket goes on as soon as the socket answers. -/
theorem enabled_of_awaits {s : State} (h : Awaits dg s) : Enabled dg s EpStep := by
  cases h1 : step dg s (.ep true) with
  | some x => exact ⟨_, _, _, ⟨true, rfl⟩, h1⟩
  | none =>
    cases h2 : step dg s (.ep false) with
    | some x => exact ⟨_, _, _, ⟨false, rfl⟩, h2⟩
    | none => exact absurd (h1.trans h2.symm) h

/-- The endpoint task goes on for ever, or has nothing left to do. -/
theorem ep_goes (hf : r.Fair) (hr : r.Read) (hb : r.Settles) :
    (∀ N, ∃ n, N ≤ n ∧ r.Does n EpStep) ∨
    ∃ N, ∀ n, N ≤ n → (r.state n).cmds = [] ∧ ((r.state n).pc = .idle ∨ (r.state n).pc = .stopped) := by
  rcases ep_goes_or_awaits hf hr hb with h | h | ⟨M, -, h⟩
  · exact .inl h
  · exact .inr h
  · exact .inl (hf.ep fun N => ⟨max N M, by omega, enabled_of_awaits (h _ (by omega))⟩)

end Rsomeip.Rt.Ep
