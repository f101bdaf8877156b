import Verif.Lemmas.NodeRun
import Verif.Lemmas.NodeCut
import Verif.Props.Rt.Live
import Verif.Props.Rt.Done

/-! # C126: in the long run everything gets done, on a UDP socket -/

namespace Rsomeip

section
open Rt Rt.Ep Spec

/-- The receiving task of a connection asks for the next packet again and again, or the connection
ends. -/
theorem Rt.Ep.waits_again {dg : Bool} {r : Spec.Ep.Run dg} (hf : r.Fair) (hr : r.Read) (hb : r.Settles) (c n : Nat) :
    ∃ m, n ≤ m ∧ (((r.state m).conns c).alive = false ∨ ((r.state m).conns c).pc = .wait) := by
  apply Classical.byContradiction
  intro hc
  have h1 : ∀ m, n ≤ m → ((r.state m).conns c).alive = true ∧ ((r.state m).conns c).pc ≠ .wait := by
    intro m hm
    refine ⟨?_, fun h => hc ⟨m, hm, .inr h⟩⟩
    cases ha : ((r.state m).conns c).alive with
    | true => rfl
    | false => exact absurd ⟨m, hm, .inl ha⟩ hc
  -- nothing is read any more
  have h2 : ∀ m, n ≤ m → Spec.Ep.heard c (r.hist m) = Spec.Ep.heard c (r.hist n) := by
    intro m hm
    induction m, hm using Nat.le_induction with
    | base => rfl
    | succ m hm ih =>
      rw [r.hist_succ]
      rcases r.move m with ⟨h3, h4⟩ | ⟨a, o, h3, h4⟩
      · rw [h3, Option.toList_none, List.append_nil, ih]
      · rw [h3, Option.toList_some, heard_snoc, ih, hearing_other, List.append_nil]
        rintro q rfl
        have h5 := (h1 m hm).2
        generalize r.state (m + 1) = z at h4
        cases move_of_step h4 <;> exact h5 ‹_›
  obtain ⟨m, h3, h4⟩ := run_messages r hf hr hb c n
  have h5 : ∀ j, m ≤ j → ((r.state j).conns c).pc = .route [] := by
    intro j hj
    obtain ⟨h6, h7⟩ := h1 j (by omega)
    have h8 := (line (r.exec j)).alive c h6
    rcases h4 with h4 | h4
    · obtain ⟨t, h9, -⟩ := r.segment hj
      have h10 : Spec.Ep.heard c (r.hist n) <+: Spec.Ep.settled c (r.hist j) := by
        rw [h9]
        refine h4.trans ?_
        rw [Spec.Ep.settled, Spec.Ep.settled, List.filterMap_append]
        exact List.prefix_append ..
      rw [h2 j (by omega)] at h8
      have h11 := h10.length_le
      rw [← h8, List.length_append] at h11
      have h12 : ((r.state j).conns c).pc.pending = [] :=
        List.eq_nil_of_length_eq_zero (by omega)
      cases hp : ((r.state j).conns c).pc with
      | wait => exact absurd hp h7
      | sending i x xs => rw [hp] at h12; cases h12
      | route ms =>
        rw [hp] at h12
        rw [show ms = [] from h12]
    · rw [(h1 m h3).1] at h4
      cases h4
  obtain ⟨j, h6, a, o, h7, rfl⟩ := hf.route c (fun M => ⟨max M m, Nat.le_max_left ..,
    _, _, _, rfl, step_of_move (.routeDone c (h5 _ (Nat.le_max_right ..)))⟩) m
  have h8 := h5 j h6
  have h9 := h5 (j + 1) (by omega)
  rcases r.move j with ⟨h10, _⟩ | ⟨a', o', h10, h11⟩
  · rw [h7] at h10; cases h10
  · rw [h7] at h10
    cases h10
    generalize r.state (j + 1) = z at h11 h9
    cases move_of_step h11 <;> simp_all [upd]

end

open Rt Rt.Node Spec Spec.Ep Spec.Node

variable {r : Node.Run}

/-- **C126.** If no task and no call is passed over, and no handle stays full for ever, then every call
of `serve` and `proxy` returns. -/
theorem C126_requests_partial (hf : Node.Fair r) (hr : Node.Read r) (hb : Node.Settles r) (n : Nat) :
    ∃ m, n ≤ m ∧ requests (app (r.hist n)) <+: answered (app (r.hist m)) := by
  have := C104_requests_partial (epRun r) (ep_fair hf) (ep_read hr) (ep_settles hb) n
  simpa only [epRun_hist] using this

/-- **C126.** If no task and no call is passed over, and no handle stays full for ever, then every call
of `send_to` returns. -/
theorem C126_calls_partial (hf : Node.Fair r) (hr : Node.Read r) (hb : Node.Settles r) (k n : Nat) :
    ∃ m, n ≤ m ∧ inCall k (app (r.hist m)) = false := by
  have := C104_calls_partial (epRun r) (ep_fair hf) (ep_read hr) (ep_settles hb) k n
  simpa only [epRun_hist] using this

/-- **C126.** If the sending task of a connection is not passed over, then every message accepted by
`send` or `send_to` is handed to the socket, or the connection ends. Nothing is asked of the users of
the endpoint. -/
theorem C126_sent (r : Node.Run) (c : Nat) (hf : r.FairTo (Node.SendStep c)) (n : Nat) : ∃ m, n ≤ m ∧
    ((accepted c (app (r.hist n))).map wireForm <+: onWire c (app (r.hist m)) ∨
      ConnOver c (app (r.hist m))) := by
  have := C104_sent (epRun r) c (ep_fair_send hf) n
  simpa only [epRun_hist] using this

/-- **C126.** If the receiving task of the socket is not passed over, then every datagram that the
socket receives is put into the channel of a connection or dropped. Nothing is asked of anybody else. -/
theorem C126_datagrams (r : Node.Run) (hf : r.FairTo (· = .task)) (n : Nat) : ∃ m, n ≤ m ∧
    Udp.arrived (socket (r.hist n)) <+: handled (socket (r.hist m)) := by
  obtain ⟨m, h1, h2⟩ := task_waits hf n
  obtain ⟨-, hh, -⟩ := Rt.Udp.exec_inv (parts (r.exec m)).2
  have h3 := hh.fate
  rw [show (r.state m).udp.pc.inflight = [] by rcases h2 with h2 | h2 <;> rw [h2] <;> rfl,
    List.append_nil] at h3
  refine ⟨m, h1, ?_⟩
  rw [handled, h3]
  obtain ⟨t, h4, -⟩ := r.segment h1
  rw [h4, socket, socket, List.flatMap_append, Udp.arrived, Udp.arrived, List.filterMap_append]
  exact List.prefix_append ..

/-! ### What is put into a channel is read -/

theorem socket_append (t u : Node.Trace) : socket (t ++ u) = socket t ++ socket u := by
  simp only [socket, List.flatMap_append]

theorem seen_append (d : Nat) (t u : Udp.Trace) :
    Udp.seen d (t ++ u) = Udp.seen d t ++ Udp.seen d u := by
  simp only [Udp.seen, List.flatMap_append]

theorem shows_take : ∀ (k : Nat) (o : List (Option Bytes)) (p : List Bytes), Udp.Shows o p →
    Udp.Shows (o.take k) (p.take k)
  | 0, _, _, _ => by simp [Udp.Shows]
  | _ + 1, [], _, _ => by simp [Udp.Shows]
  | _ + 1, none :: _, [], h => h.elim
  | _ + 1, some _ :: _, [], h => h.elim
  | k + 1, none :: o, _ :: p, h => shows_take k o p h
  | k + 1, some _ :: o, _ :: p, h => ⟨h.1, shows_take k o p h.2⟩

theorem run_reads (hf : Node.Fair r) (hr : Node.Read r) (hb : Node.Settles r) {c n : Nat}
    (hc : c < (r.state n).ep.connCount) : ∃ m, n ≤ m ∧ (((r.state m).ep.conns c).alive = false ∨
      (Udp.into ((r.state n).chan c) (socket (r.hist n))).length ≤
        (Udp.seen ((r.state n).chan c) (socket (r.hist m))).length) := by
  apply Classical.byContradiction
  intro hn
  have h1 : ∀ m, n ≤ m → ((r.state m).ep.conns c).alive = true ∧
      (Udp.seen ((r.state n).chan c) (socket (r.hist m))).length <
        (Udp.into ((r.state n).chan c) (socket (r.hist n))).length := by
    intro m hm
    refine ⟨?_, Nat.lt_of_not_le fun h => hn ⟨m, hm, .inr h⟩⟩
    cases ha : ((r.state m).ep.conns c).alive with
    | true => rfl
    | false => exact absurd ⟨m, hm, .inl ha⟩ hn
  have h2 : ∀ m, n ≤ m → c < (r.state m).ep.connCount ∧ (r.state m).chan c = (r.state n).chan c := by
    intro m hm
    obtain ⟨t, -, h3⟩ := r.segment hm
    exact chan_stays h3 hc
  have h3 : ∀ m, n ≤ m → (Udp.seen ((r.state n).chan c) (socket (r.hist m))).length ≤
      (Udp.seen ((r.state n).chan c) (socket (r.hist (m + 1)))).length := by
    intro m hm
    rw [r.hist_succ, socket_append, seen_append, List.length_append]
    omega
  have h4 : ∀ m, n ≤ m → r.Does m (RecvStep c) →
      (Udp.seen ((r.state n).chan c) (socket (r.hist m))).length <
        (Udp.seen ((r.state n).chan c) (socket (r.hist (m + 1)))).length := by
    rintro m hm ⟨a, o, h4, p, rfl⟩
    rw [r.hist_succ, socket_append, seen_append, List.length_append, h4, Option.toList_some]
    have h5 := (h2 m hm).2
    have h6 := (h1 (m + 1) (by omega)).1
    rcases r.move m with ⟨h7, _⟩ | ⟨a', o', h7, h8⟩
    · rw [h4] at h7; cases h7
    · rw [h4] at h7
      cases h7
      suffices 0 < (Udp.seen ((r.state n).chan c) (socket [(.app (.packet c p), o)])).length by omega
      generalize r.state (m + 1) = z at h8 h6
      cases move_of_step h8 with
      | net _ u v w ha => exact absurd rfl (ha _)
      | app _ e o _ us out he hcall =>
        cases hcall with
        | recv c' q v w hx hr ha hu =>
          cases hx
          rw [h5] at hu
          have h9 := Rt.Udp.move_of_step hu
          generalize hy : Rt.Udp.Action.recv ((r.state n).chan c) = y at h9
          cases h9 <;> cases hy <;> simp [Node.received] at hr
          · simp only [socket, List.flatMap_cons, List.flatMap_nil, List.append_nil, h5, Udp.seen,
              if_true, List.length_replicate]
            assumption
          · simp [socket, h5, Udp.seen]
          · subst hr
            exfalso
            generalize hz : Rt.Ep.Action.packet c .closed = z at he
            cases Rt.Ep.move_of_step he <;> cases hz <;> simp_all [receive, upd, Rt.Ep.Conn.ended]
        | recvEnd c' q v v' w w' hx hr ha hu hu' =>
          cases hx
          simp only at h6
          rw [ha] at h6
          cases h6
        | still _ _ _ _ h5 => exact absurd rfl (h5 _ _)
        | _ => simp_all
  obtain ⟨m, h5, h6⟩ := r.grows (hf.recv c) _ h3 h4 (fun M => by
    obtain ⟨m, h5, h6⟩ := Rt.Ep.waits_again (ep_fair hf) (ep_read hr) (ep_settles hb) c (max M n)
    obtain ⟨h7, h8⟩ := h1 m (by omega)
    obtain ⟨h9, h10⟩ := h2 m (by omega)
    have hl := link (r.exec m)
    obtain ⟨y, s', w, h11, h12⟩ := can_recv hl h9 h7 (h6.resolve_left (by
        intro h
        rw [show ((epRun r).state m) = (r.state m).ep from rfl, h7] at h
        cases h)) (by
      have h11 := (Rt.Udp.chan_complete (parts (r.exec m)).2 ((r.state m).chan c)
        (by rw [(hl.chan c h9).2.2.2, h7])).2
      rw [h10] at h11 ⊢
      obtain ⟨t, h12, -⟩ := r.segment (show n ≤ m by omega)
      have h13 : (Udp.into ((r.state n).chan c) (socket (r.hist n))).length ≤
          (Udp.into ((r.state n).chan c) (socket (r.hist m))).length := by
        rw [h12, socket_append, into_append, List.length_append]
        omega
      by_cases h14 : (Rt.Udp.State.chans (r.state m).udp ((r.state n).chan c)).queue = []
      · right
        rw [h14] at h11
        simp only [List.length_nil] at h11
        omega
      · exact .inl h14)
    exact ⟨m, by omega, y, w, s', h11, h12⟩)
    (Udp.into ((r.state n).chan c) (socket (r.hist n))).length
  exact absurd (h1 m h5).2 (Nat.not_lt.mpr h6)

/-- **C126.** If no task and no call is passed over, and no handle stays full for ever, then everything
that the socket put into the channel of a connection is read by it or reported to it as missed, and all
messages of the packets read are handed to the handles of their interfaces or dropped, or the connection
ends. -/
theorem C126_received_partial (hf : Node.Fair r) (hr : Node.Read r) (hb : Node.Settles r) {c n : Nat}
    {a : Addr} (hc : Shown (app (r.hist n)) (.opened c a)) : ∃ m, n ≤ m ∧
    (ConnOver c (app (r.hist m)) ∨ ∃ p,
      p.length = (Udp.into ((r.state n).chan c) (socket (r.hist n))).length ∧
      Udp.Shows p (Udp.into ((r.state n).chan c) (socket (r.hist n))) ∧
      p <+: Udp.seen ((r.state n).chan c) (socket (r.hist m)) ∧
      (p.filterMap id).flatMap contents <+: settled c (app (r.hist m))) := by
  have hc := ((told (r.exec n)).opened c a hc).1
  have over : ∀ {m}, n ≤ m → ((r.state m).ep.conns c).alive = false → ConnOver c (app (r.hist m)) := by
    intro m hm h
    obtain ⟨t, -, h3⟩ := r.segment hm
    exact Rt.Ep.over_of_dead (parts (r.exec m)).1 (chan_stays h3 hc).1 h
  obtain ⟨m, h1, h2⟩ := run_reads hf hr hb hc
  rcases h2 with h2 | h2
  · exact ⟨m, h1, .inl (over h1 h2)⟩
  · obtain ⟨m', h3, h4⟩ := run_messages (epRun r) (ep_fair hf) (ep_read hr) (ep_settles hb) c m
    rcases h4 with h4 | h4
    · refine ⟨m', by omega, .inr ⟨(Udp.seen ((r.state n).chan c) (socket (r.hist m))).take
        (Udp.into ((r.state n).chan c) (socket (r.hist n))).length, ?_, ?_, ?_, ?_⟩⟩
      · rw [List.length_take]
        omega
      · obtain ⟨t, h5, -⟩ := r.segment h1
        have h6 := shows_take (Udp.into ((r.state n).chan c) (socket (r.hist n))).length _ _
          ((Rt.Udp.exec_inv (parts (r.exec m)).2).2.1.shows ((r.state n).chan c))
        have h7 : (Udp.into ((r.state n).chan c) (socket (r.hist m))).take
            (Udp.into ((r.state n).chan c) (socket (r.hist n))).length =
            Udp.into ((r.state n).chan c) (socket (r.hist n)) := by
          rw [h5, socket_append, into_append, List.take_left]
        rw [h7] at h6
        exact h6
      · obtain ⟨t, h5, -⟩ := r.segment h3
        rw [h5, socket_append, seen_append]
        exact (List.take_prefix ..).trans (List.prefix_append ..)
      · rw [epRun_hist, epRun_hist] at h4
        refine List.IsPrefix.trans ?_ h4
        obtain ⟨t, -, h5⟩ := r.segment h1
        obtain ⟨h6, h7⟩ := chan_stays h5 hc
        rw [heard_eq, (told (r.exec m)).reads c h6, h7, Udp.got]
        obtain ⟨u, hu⟩ := List.take_prefix (Udp.into ((r.state n).chan c) (socket (r.hist n))).length
          (Udp.seen ((r.state n).chan c) (socket (r.hist m)))
        generalize List.take _ _ = p at hu
        rw [← hu, List.filterMap_append, List.flatMap_append]
        exact List.prefix_append ..
    · exact ⟨m', by omega, .inl (over (by omega) h4)⟩

/-! ### Connections are accepted -/

/-- Listeners keep their backlog. -/
theorem backlog_stays {tr : Node.Trace} {s s' : Node.State} (e : Exec Node.step s tr s') {l : Nat}
    (hl : l < s.ep.lisCount) : l < s'.ep.lisCount ∧ s'.backlog l = s.backlog l := by
  induction e with
  | nil => exact ⟨hl, rfl⟩
  | @snoc tr1 s1 s2 act ob _ hs ih =>
    obtain ⟨h1, h2⟩ := ih
    rw [← h2]
    cases move_of_step hs with
    | app x e o s' us out he hcall =>
      have m := Rt.Ep.move_of_step he
      refine ⟨by rw [hcall.ep]; cases m <;> first | exact h1 | exact Nat.lt_succ_of_lt h1, ?_⟩
      cases hcall
      case listen => exact upd_ne _ _ (by omega)
      all_goals rfl
    | net _ u v w ha hn hd hu => exact ⟨h1, rfl⟩

theorem Rt.Ep.share_lt {dg : Bool} {tr : Spec.Ep.Trace} {s : Rt.Ep.State}
    (e : Exec (Rt.Ep.step dg) Rt.Ep.init tr s) {l c : Nat} (h : (s.liss l).pc = .share c) :
    c < s.connCount := by
  induction e with
  | nil => cases h
  | snoc e hs ih => cases Rt.Ep.move_of_step hs <;> first | exact ih h | grind [upd, Rt.Ep.newLis, Rt.Ep.deadLis]

/-- The task of a listener asks for the next connection again and again, or the listener ends. -/
theorem lis_waits_again (hf : Node.Fair r) (hb : Node.Settles r) (l n : Nat) :
    ∃ m, n ≤ m ∧ (((r.state m).ep.liss l).alive = false ∨ ((r.state m).ep.liss l).pc = .wait) := by
  apply Classical.byContradiction
  intro hc
  have h1 : ∀ m, n ≤ m → ((r.state m).ep.liss l).alive = true ∧ ((r.state m).ep.liss l).pc ≠ .wait := by
    intro m hm
    refine ⟨?_, fun h => hc ⟨m, hm, .inr h⟩⟩
    cases ha : ((r.state m).ep.liss l).alive with
    | true => rfl
    | false => exact absurd ⟨m, hm, .inl ha⟩ hc
  have h4 := hf.share l
  by_cases h5 : ∀ N, ∃ m, N ≤ m ∧ r.Does m (· = .app (.lisShare l))
  · obtain ⟨m, h6, a, o, h7, rfl⟩ := h5 n
    have h8 := (h1 (m + 1) (by omega)).2
    rcases r.move m with ⟨h9, _⟩ | ⟨a', o', h9, h10⟩
    · rw [h7] at h9; cases h9
    · rw [h7] at h9
      cases h9
      generalize r.state (m + 1) = z at h10 h8
      cases move_of_step h10 with
      | net _ u v w ha => exact absurd rfl (ha _)
      | app _ e o _ us out he hcall =>
        rw [hcall.ep] at h8
        cases Rt.Ep.move_of_step he
        simp [upd] at h8
  · obtain ⟨N, h5⟩ := not_forall.mp h5
    have h5 : ∀ m, N ≤ m → ¬ r.Does m (· = .app (.lisShare l)) := fun m hm hd => h5 ⟨m, hm, hd⟩
    let M := max n N
    obtain ⟨c, h2⟩ : ∃ c, ((r.state M).ep.liss l).pc = .share c := by
      cases hp : ((r.state M).ep.liss l).pc with
      | wait => exact absurd hp (h1 M (Nat.le_max_left ..)).2
      | share c => exact ⟨c, rfl⟩
    have h3 : ∀ m, M ≤ m → ((r.state m).ep.liss l).pc = .share c ∧ c < (r.state m).ep.connCount ∧
        ((r.state m).ep.conns c).addr = ((r.state M).ep.conns c).addr := by
      intro m hm
      induction m, hm using Nat.le_induction with
      | base => exact ⟨h2, Rt.Ep.share_lt (parts (r.exec M)).1 h2, rfl⟩
      | succ m hm ih =>
        have h6 := (h1 (m + 1) (by omega)).2
        rcases r.move m with ⟨_, h7⟩ | ⟨x, o, h7, h8⟩
        · rw [h7]; exact ih
        · have h9 : x ≠ .app (.lisShare l) := fun h => h5 m (by omega) ⟨x, o, h7, h⟩
          generalize r.state (m + 1) = z at h8 h6
          clear h7
          cases move_of_step h8 with
          | net _ u v w ha => exact ih
          | app y e o _ us out he hcall =>
            rw [hcall.ep] at h6 ⊢
            have h9 : y ≠ .lisShare l := fun h => h9 (by rw [h])
            clear hcall h8 h1 h5 hc
            cases Rt.Ep.move_of_step he <;> clear he <;>
              first | exact ih | grind [upd, Rt.Ep.newLis, Rt.Ep.deadLis, Rt.Ep.newConn, Rt.Ep.Conn.ended]
    obtain ⟨m, h6, h7⟩ := h4 (fun K => by
      obtain ⟨m, h6, h7⟩ := Rt.Ep.peer_unlocked (ep_fair hf) (ep_settles hb)
        ((r.state M).ep.conns c).addr (max K M)
      obtain ⟨h8, -, h9⟩ := h3 m (by omega)
      rw [← h9] at h7
      obtain ⟨s', w, h10⟩ := can_still (Rt.Ep.step_of_move (.lisShare l c h8 h7)) rfl
      exact ⟨m, by omega, _, w, s', rfl, h10⟩) N
    exact h5 m h6 h7

theorem offered_prefix (b : Nat) (t u : Udp.Trace) : Udp.offered b t <+: Udp.offered b (t ++ u) := by
  induction u using List.reverseRecOn with
  | nil => simp
  | append_singleton u x ih =>
    refine ih.trans ?_
    rw [Udp.offered, Udp.offered, ← List.append_assoc, Rt.Udp.offer_snoc]
    generalize (t ++ u).foldl _ _ = y
    obtain ⟨k, q⟩ := y
    obtain ⟨a, o⟩ := x
    show q <+: (Udp.offerStep b (k, q) (a, o)).2
    simp only [Udp.offerStep]
    split
    · cases ‹(k, q) = _›; exact List.prefix_rfl
    · cases ‹(k, q) = _›
      dsimp only
      split
      · exact List.prefix_append ..
      · exact List.prefix_rfl
    · exact List.prefix_rfl

theorem takenFrom_append (b : Nat) (t u : Udp.Trace) :
    Udp.takenFrom b (t ++ u) = Udp.takenFrom b t ++ Udp.takenFrom b u := by
  simp only [Udp.takenFrom, List.filterMap_append]

/-- **C126.** If no task and no call is passed over, then every connection that the socket makes for a
listener is accepted, or the listener is dropped. Nothing is asked of the users of the handles. -/
theorem C126_accepted (hf : Node.Fair r) (hb : Node.Settles r) (b n : Nat) : ∃ m, n ≤ m ∧
    (Udp.offered b (socket (r.hist n)) <+: Udp.takenFrom b (socket (r.hist m)) ∨
      (.dropListener b, .none) ∈ socket (r.hist m)) := by
  apply Classical.byContradiction
  intro hc
  have h1 : ∀ m, n ≤ m → ¬ Udp.offered b (socket (r.hist n)) <+: Udp.takenFrom b (socket (r.hist m)) ∧
      (.dropListener b, .none) ∉ socket (r.hist m) :=
    fun m hm => ⟨fun h => hc ⟨m, hm, .inl h⟩, fun h => hc ⟨m, hm, .inr h⟩⟩
  have h2 : b < (r.state n).udp.backlogCount := by
    refine Nat.lt_of_not_le fun h => (h1 n (Nat.le_refl _)).1 ?_
    rw [((Rt.Udp.queues (parts (r.exec n)).2).low b h).1]
    exact List.nil_prefix
  obtain ⟨l, h3, h4⟩ := owned_backlog (r.exec n) b h2
  have h5 : ∀ m, n ≤ m → l < (r.state m).ep.lisCount ∧ (r.state m).backlog l = b := by
    intro m hm
    obtain ⟨t, -, h5⟩ := r.segment hm
    rw [← h4]
    exact backlog_stays h5 h3
  have h6 : ∀ m, n ≤ m → ((r.state m).udp.backlogs b).rx = true ∧
      ((r.state m).ep.liss l).alive = true := by
    intro m hm
    obtain ⟨h6, h7⟩ := h5 m hm
    obtain ⟨h8, h9⟩ := (link (r.exec m)).backlog l h6
    rw [h7] at h8 h9
    have e2 := (parts (r.exec m)).2
    have h10 := (Rt.Udp.listener_open_iff e2 b).mp ⟨Rt.Udp.listener_made e2 h8, (h1 m hm).2⟩
    exact ⟨h10, h9.symm.trans h10⟩
  have h7 : ∀ m, n ≤ m → Udp.offered b (socket (r.hist n)) <+: Udp.offered b (socket (r.hist m)) := by
    intro m hm
    obtain ⟨t, h7, -⟩ := r.segment hm
    rw [h7, socket_append]
    exact offered_prefix ..
  have h8 : ∀ m, n ≤ m → (Udp.takenFrom b (socket (r.hist m))).length <
      (Udp.offered b (socket (r.hist n))).length := by
    intro m hm
    refine Nat.lt_of_not_le fun h => (h1 m hm).1 ?_
    exact List.prefix_of_prefix_length_le (h7 m hm) ((Rt.Udp.queues (parts (r.exec m)).2).split b) h
  obtain ⟨m, h9, h10⟩ := r.grows (hf.accept l) (N := n)
    (fun m => (Udp.takenFrom b (socket (r.hist m))).length)
    (fun m hm => by
      rw [r.hist_succ, socket_append, takenFrom_append, List.length_append]
      omega)
    (fun m hm hd => by
      obtain ⟨x, o, h9, a, rfl⟩ := hd
      rw [r.hist_succ, socket_append, takenFrom_append, List.length_append, h9, Option.toList_some]
      suffices 0 < (Udp.takenFrom b (socket [(.app (.accept l a), o)])).length by omega
      rcases r.move m with ⟨h10, _⟩ | ⟨a', o', h10, h11⟩
      · rw [h9] at h10; cases h10
      · rw [h9] at h10
        cases h10
        have h12 := (h5 m hm).2
        generalize r.state (m + 1) = z at h11
        cases move_of_step h11 with
        | net _ u v w ha => exact absurd rfl (ha _)
        | app _ e o _ us out he hcall =>
          cases hcall with
          | accept l' a' v d hx hu =>
            cases hx
            simp [socket, Udp.takenFrom, h12]
          | still _ h2 => exact absurd rfl (h2 _ _)
          | _ => simp_all)
    (fun M => by
      obtain ⟨m, h9, h10⟩ := lis_waits_again hf hb l (max M n)
      obtain ⟨h11, h12⟩ := h6 m (by omega)
      rw [h12] at h10
      have e2 := (parts (r.exec m)).2
      obtain ⟨y, s', w, h13, h14⟩ := can_accept (link (r.exec m))
        (Rt.Ep.good_hist (parts (r.exec m)).1).1 h12 (h10.resolve_left nofun) (by
          rw [(h5 m (by omega)).2, (Rt.Udp.queues e2).queue b h11]
          intro h
          have h15 := congrArg List.length h
          rw [Spec.Udp.pending, List.length_drop, List.length_nil] at h15
          have h16 := h8 m (by omega)
          have h17 := (h7 m (by omega)).length_le
          omega)
      exact ⟨m, by omega, y, w, s', h13, h14⟩)
    (Udp.offered b (socket (r.hist n))).length
  exact absurd (h8 m h9) (Nat.not_lt.mpr h10)

/-! ### Runs that come to rest -/

/-- A run that has come to rest is fair. -/
theorem rests_fair {tr : Node.Trace} {s : Node.State} (e : Exec Node.step Node.init tr s)
    (h : Rests s) : ∃ r : Node.Run, Node.Fair r ∧ Node.Settles r ∧
      (∀ P : Node.Action → Prop, (∀ x, P x → Node.step s x = none) → r.FairTo P) ∧
      ∀ n, tr.length ≤ n → r.state n = s ∧ r.hist n = tr := by
  obtain ⟨r, hr⟩ := Endless.of_exec e
  have key : ∀ P : Node.Action → Prop, (∀ x, P x → Node.step s x = none) → r.FairTo P := by
    intro P hP hio
    obtain ⟨n, hn, a, o, s', h1, h2⟩ := hio tr.length
    rw [(hr n hn).1, hP a h1] at h2
    cases h2
  refine ⟨r, ⟨key _ ?_, fun l => key _ ?_, fun l => key _ ?_, fun l => key _ ?_, fun l => key _ ?_,
    fun l => key _ ?_, fun l => key _ ?_, fun l => key _ ?_, key _ ?_⟩, ⟨tr.length, ?_⟩, key,
    fun n hn => ⟨(hr n hn).1, (hr n hn).2.1⟩⟩
  · rintro x ⟨ok, rfl⟩; exact h _ rfl
  · rintro x rfl; exact h _ rfl
  · rintro x ⟨a, rfl⟩; exact h _ rfl
  · rintro x rfl; exact h _ rfl
  · rintro x rfl; exact h _ rfl
  · rintro x ⟨p, rfl⟩; exact h _ rfl
  · rintro x (rfl | ⟨ok, rfl⟩) <;> exact h _ rfl
  · rintro x rfl; exact h _ rfl
  · rintro x rfl; exact h _ rfl
  · rintro n hn ⟨a, o, h7, _⟩
    rw [(hr n hn).2.2] at h7
    cases h7

/-- No task can go on, and no handle can be read from. -/
def calmNode (s : Node.State) : Bool :=
  halted true s.ep && (Node.step s .task).isNone &&
  (List.range s.ep.lisCount).all (fun l =>
    decide ((s.ep.liss l).pc = .wait) && (Rt.Udp.step s.udp (.accept (s.backlog l))).isNone) &&
  (List.range s.ep.connCount).all (fun c => decide ((s.ep.conns c).pc ≠ .wait) ||
    (Rt.Udp.step s.udp (.recv (s.chan c))).isNone)

theorem calm_still {s : Node.State} (hg : Rt.Ep.Good s.ep) (h : calmNode s = true) :
    Rests s ∧ (∀ k, Node.step s (.app (.stubRecv k)) = none) ∧
      ∀ p, Node.step s (.app (.proxyRecv p)) = none := by
  simp only [calmNode, halted, resting, Bool.and_eq_true, List.all_eq_true, List.mem_range,
    Option.isNone_iff_eq_none, Bool.or_eq_true, decide_eq_true_eq] at h
  obtain ⟨⟨⟨⟨⟨h1, h2⟩, ⟨⟨h3, h4⟩, h5⟩, h6⟩, h7⟩, h8⟩, h9⟩ := h
  have key : ∀ {y}, Rt.Ep.step true s.ep y = none → Node.step s (.app y) = none := by
    intro y hy
    simp [Node.step, hy]
  have hf := hg.fresh
  refine ⟨fun x hx => ?_, fun k => key ?_, fun p => key ?_⟩
  · cases x with
    | task => exact h7
    | app y =>
      cases y with
      | ep ok => cases ok <;> exact key (by assumption)
      | accept l a =>
        by_cases hl : l < s.ep.lisCount
        · simp only [Node.step]
          split
          · simp [appCall, acceptCall, (h8 l hl).2]
          · rfl
        · exact key (by simp [Rt.Ep.step, hf.liss l (Nat.not_lt.mp hl)])
      | acceptNone l =>
        by_cases hl : l < s.ep.lisCount
        · simp only [Node.step]
          split
          · simp [appCall, (h8 l hl).2]
          · rfl
        · exact key (by simp [Rt.Ep.step, hf.liss l (Nat.not_lt.mp hl)])
      | lisShare l =>
        refine key ?_
        by_cases hl : l < s.ep.lisCount
        · simp [Rt.Ep.step, Rt.Ep.lisShare, (h8 l hl).1]
        · simp [Rt.Ep.step, Rt.Ep.lisShare, hf.liss l (Nat.not_lt.mp hl)]
      | lisCmd l =>
        refine key ?_
        by_cases hl : l < s.ep.lisCount
        · exact h3 l hl
        · simp [Rt.Ep.step, Rt.Ep.lisCmd, hf.liss l (Nat.not_lt.mp hl)]
      | packet c q =>
        by_cases hl : c < s.ep.connCount
        · rcases h9 c hl with h10 | h10
          · exact key (by simp [Rt.Ep.step, Rt.Ep.packet, h10])
          · simp only [Node.step]
            split
            · simp [appCall, recvCall, h10]
            · rfl
        · exact key (by simp [Rt.Ep.step, Rt.Ep.packet, hf.conns c (Nat.not_lt.mp hl)])
      | route c =>
        refine key ?_
        by_cases hl : c < s.ep.connCount
        · exact (h4 c hl).1.1.1
        · simp [Rt.Ep.step, Rt.Ep.route, hf.conns c (Nat.not_lt.mp hl)]
      | connCmd c =>
        refine key ?_
        by_cases hl : c < s.ep.connCount
        · exact (h4 c hl).1.1.2
        · simp [Rt.Ep.step, Rt.Ep.connCmd, hf.conns c (Nat.not_lt.mp hl)]
      | sent c ok =>
        refine key ?_
        by_cases hl : c < s.ep.connCount
        · cases ok
          · exact (h4 c hl).2
          · exact (h4 c hl).1.2
        · simp [Rt.Ep.step, Rt.Ep.sent, hf.conns c (Nat.not_lt.mp hl)]
      | stubStep k =>
        refine key ?_
        by_cases hl : k < s.ep.stubCount
        · exact (h5 k hl).1
        · simp [Rt.Ep.step, Rt.Ep.stubStep, hf.stubs k (Nat.not_lt.mp hl)]
      | _ => cases hx
    | _ => cases hx
  · by_cases hl : k < s.ep.stubCount
    · exact (h5 k hl).2
    · simp [Rt.Ep.step, Rt.Ep.stubRecv, hf.stubs k (Nat.not_lt.mp hl)]
  · by_cases hl : p < s.ep.proxyCount
    · exact h6 p hl
    · simp [Rt.Ep.step, Rt.Ep.proxyRecv, hf.proxies p (Nat.not_lt.mp hl)]

/-- A run in which nobody is passed over and everything is read: calls are made, datagrams arrive from
a new peer, the connection is accepted, its packets are read, and messages are sent. -/
example : ∃ r : Node.Run, Node.Fair r ∧ Node.Read r ∧ Node.Settles r ∧ ∃ n,
    Shown (app (r.hist n)) (.opened 1 8) ∧ (requests (app (r.hist n))).length = 2 ∧
    Udp.into ((r.state n).chan 1) (socket (r.hist n)) =
      [frame Spec.Ep.msgA ++ frame Spec.Ep.msgB, frame Spec.Ep.msgA] ∧
    Udp.arrived (socket (r.hist n)) =
      [(8, frame Spec.Ep.msgA ++ frame Spec.Ep.msgB), (8, frame Spec.Ep.msgA)] ∧
    Udp.offered 0 (socket (r.hist n)) = [(1, 8)] ∧ accepted 1 (app (r.hist n)) = [Spec.Ep.msgB] := by
  obtain ⟨tr, s, e, h⟩ := exec_by (step := Node.step) (s := Node.init)
    (Spec.Node.busy ++ [.app (.stubRecv 0), .app (.proxyRecv 0)])
    (fun tr s => calmNode s && decide (
      (∀ k, k < s.ep.stubCount → (s.ep.ifaces (s.ep.stubs k).iface).queue.length < 16) ∧
      (∀ p, p < s.ep.proxyCount → (s.ep.ifaces (s.ep.proxies p).iface).queue.length < 16) ∧
      (.app (.accept 0 8), ⟨some (.opened 1 8), [(.accept 0, .connection 1 8)], []⟩) ∈ tr ∧
      (requests (app tr)).length = 2 ∧
      Udp.into (s.chan 1) (socket tr) = [frame Spec.Ep.msgA ++ frame Spec.Ep.msgB, frame Spec.Ep.msgA] ∧
      Udp.arrived (socket tr) =
        [(8, frame Spec.Ep.msgA ++ frame Spec.Ep.msgB), (8, frame Spec.Ep.msgA)] ∧
      Udp.offered 0 (socket tr) = [(1, 8)] ∧ accepted 1 (app tr) = [Spec.Ep.msgB]))
    (by decide +kernel)
  rw [Bool.and_eq_true, decide_eq_true_iff] at h
  obtain ⟨h0, h1, h2, h3, h4⟩ := h
  have hg := (Rt.Ep.good_hist (parts e).1).1
  obtain ⟨r, h5, h6, -, h7⟩ := rests_fair e (calm_still hg h0).1
  refine ⟨r, h5, ⟨fun k N => ⟨max N tr.length, Nat.le_max_left .., ?_⟩,
    fun p N => ⟨max N tr.length, Nat.le_max_left .., ?_⟩⟩, h6, tr.length, ?_⟩
  · rw [(h7 _ (Nat.le_max_right ..)).1]
    exact fun hk => h1 k (Rt.Ep.stub_lt hg.fresh hk)
  · rw [(h7 _ (Nat.le_max_right ..)).1]
    exact fun hp => h2 p (Rt.Ep.proxy_lt hg.fresh hp)
  · rw [(h7 _ (Nat.le_refl _)).1, (h7 _ (Nat.le_refl _)).2]
    exact ⟨⟨.accept 0 8, List.mem_filterMap.mpr ⟨_, h3, rfl⟩⟩, h4⟩

/-! ### A deadlock -/

/-- A datagram with seventeen messages for stub 0 arrives. Before it reads them, it sends one to a new
peer, and somebody asks for the interface it serves. -/
def Spec.Node.deadActions : List Node.Action :=
  [.app (.serve ⟨1, 1⟩), .app (.ep true), .app (.ep true), .app (.ep true), .app (.ep true),
    .app (.ep true), .app (.lisCmd 0),
    .datagram 8 (List.replicate 17 (frame Spec.Ep.msgA)).flatten, .task, .task, .task, .task,
    .app (.accept 0 8), .app (.lisShare 0),
    .app (.packet 0 (.packet (List.replicate 17 (frame Spec.Ep.msgA)).flatten))] ++
    List.replicate 33 (.app (.route 0)) ++
    [.app (.serve ⟨1, 1⟩), .app (.ep true), .app (.stubSend 0 9 Spec.Ep.msgA), .app (.stubStep 0),
      .app (.stubStep 0)]

/-- **C126** is false of users who read from a stub whenever they are not inside another call of it: the
deadlock of C104 comes about with one datagram. None of the tasks ever goes on, though none is passed
over. -/
theorem C126_deadlock : ∃ r : Node.Run, Node.Fair r ∧ Node.Settles r ∧
    (∀ k, r.FairTo (· = .app (.stubRecv k))) ∧ (∀ p, r.FairTo (· = .app (.proxyRecv p))) ∧
    ∃ k c n, ∀ m, n ≤ m →
      StubOpen k (app (r.hist m)) ∧ inCall k (app (r.hist m)) = true ∧
      ¬ requests (app (r.hist n)) <+: answered (app (r.hist m)) ∧
      ConnOpen c (app (r.hist m)) ∧
      ¬ heard c (app (r.hist n)) <+: settled c (app (r.hist m)) := by
  obtain ⟨tr, s, e, h⟩ := exec_by (step := Node.step) (s := Node.init) Spec.Node.deadActions
    (fun tr s => calmNode s && decide ((s.ep.stubs 0).alive = true ∧ (s.ep.stubs 0).pc ≠ .idle ∧
      (answered (app tr)).length < (requests (app tr)).length ∧ (s.ep.conns 0).alive = true ∧
      (s.ep.conns 0).pc.pending.length = 1))
    (by decide +kernel)
  rw [Bool.and_eq_true, decide_eq_true_iff] at h
  have e1 := (parts e).1
  obtain ⟨hc, hk, hp⟩ := calm_still (Rt.Ep.good_hist e1).1 h.1
  obtain ⟨r, h1, h2, h3, h5⟩ := rests_fair e hc
  refine ⟨r, h1, h2, fun k => h3 _ ?_, fun p => h3 _ ?_, 0, 0, tr.length, fun m hm => ?_⟩
  · rintro x rfl; exact hk k
  · rintro x rfl; exact hp p
  rw [(h5 m hm).2, (h5 _ (Nat.le_refl _)).2]
  obtain ⟨-, h6, h7, h8, h9, h10⟩ := h
  refine ⟨(Rt.Ep.stub_open_iff e1 0).mp h6, (Rt.Ep.busy_iff e1 0).mp h7,
    fun h => absurd h.length_le (by omega), (Rt.Ep.conn_open_iff e1 0).mp h9, fun h => ?_⟩
  have := h.length_le
  rw [← (Rt.Ep.line e1).alive 0 h9, List.length_append] at this
  omega

end Rsomeip
