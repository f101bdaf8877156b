import Verif.Lemmas.TcpRun
import Verif.Props.Rt.LiveUdp
import Verif.Props.Rt.TcpDone

/-! # C127: in the long run everything gets done, on a TCP socket -/

namespace Rsomeip

open Rt Rt.TcpNode Spec
open Spec.Ep (Shown accepted wireForm onWire heard settled contents requests answered inCall ConnOver
  ConnOpen StubOpen)
open Spec.Node (reads)
open Spec.TcpNode (app written arrived ReadStep WriteStep Broke Resting GetsOn)

section
variable {r : TcpNode.Run}

/-- **C127.** If no task and no call is passed over, and no handle stays full for ever, then every call
of `serve` and `proxy` is answered, in order. -/
theorem C127_requests_partial (hf : TcpNode.Fair r) (hr : TcpNode.Read r) (hb : TcpNode.Settles r)
    (n : Nat) : ∃ m, n ≤ m ∧ requests (app (r.hist n)) <+: answered (app (r.hist m)) := by
  have := C104_requests_partial (epRun r) (ep_fair hf) (ep_read hr) (ep_settles hb) n
  simpa only [epRun_hist] using this

/-- **C127.** If no task and no call is passed over, and no handle stays full for ever, then every call
of `send_to` returns. -/
theorem C127_calls_partial (hf : TcpNode.Fair r) (hr : TcpNode.Read r) (hb : TcpNode.Settles r)
    (k n : Nat) : ∃ m, n ≤ m ∧ inCall k (app (r.hist m)) = false := by
  have := C104_calls_partial (epRun r) (ep_fair hf) (ep_read hr) (ep_settles hb) k n
  simpa only [epRun_hist] using this

theorem tcp_app_append (t u : Spec.TcpNode.Trace) : app (t ++ u) = app t ++ app u := by
  rw [app, List.filterMap_append]; rfl

theorem accepted_prefix {c n m : Nat} (h : n ≤ m) : ((accepted c (app (r.hist n))).map wireForm).flatten <+:
    ((accepted c (app (r.hist m))).map wireForm).flatten := by
  obtain ⟨t, h1, -⟩ := r.segment h
  rw [h1, tcp_app_append]
  generalize app (r.hist n) = x
  rw [accepted, accepted, List.filterMap_append, List.map_append, List.flatten_append]
  exact List.prefix_append ..

/-- **C127.** If the sending task of a connection is not passed over, and the operating system takes
some bytes again and again, then every message accepted by `send` or `send_to` is written completely,
unless the operating system reports an error on the connection. Nothing is asked of the users of the
endpoint. -/
theorem C127_sent (r : TcpNode.Run) (c : Nat) (hc : r.FairTo (· = .app (.connCmd c)))
    (hw : r.FairTo (WriteStep c)) (n : Nat) : ∃ m, n ≤ m ∧
    (((accepted c (app (r.hist n))).map wireForm).flatten <+: written c (r.hist m) ∨
      Broke c (r.hist m)) := by
  obtain ⟨m, h1, h2⟩ := C104_sent (epRun r) c (ep_fair_send hc hw) n
  simp only [epRun_hist] at h2
  refine ⟨m, h1, ?_⟩
  cases ha : ((r.state m).ep.conns c).alive with
  | false =>
    refine (dead_written (r.exec m) c ha).imp_left fun h => ?_
    rw [h]
    exact accepted_prefix h1
  | true =>
    have h3 := h2.resolve_right ((Rt.Ep.conn_open_iff (part (r.exec m)) c).mp ha).2
    left
    rw [(streams (r.exec m)).outs c ha]
    obtain ⟨t, h4⟩ := h3
    rw [← h4, List.flatten_append, List.append_assoc]
    exact List.prefix_append ..

theorem reads_append (c : Nat) (t u : Spec.Ep.Trace) : reads c (t ++ u) = reads c t ++ reads c u := by
  rw [reads, List.filterMap_append]; rfl

theorem run_takes (hf : TcpNode.Fair r) (hr : TcpNode.Read r) (hb : TcpNode.Settles r) {c n : Nat} :
    ∃ m, n ≤ m ∧ (((r.state m).ep.conns c).alive = false ∨
      (arrived c (r.hist n)).length ≤ (reads c (app (r.hist m))).flatten.length) := by
  apply Classical.byContradiction
  intro hn
  have h1 : ∀ m, n ≤ m → ((r.state m).ep.conns c).alive = true ∧
      (reads c (app (r.hist m))).flatten.length < (arrived c (r.hist n)).length := by
    intro m hm
    refine ⟨?_, Nat.lt_of_not_le fun h => hn ⟨m, hm, .inr h⟩⟩
    cases ha : ((r.state m).ep.conns c).alive with
    | true => rfl
    | false => exact absurd ⟨m, hm, .inl ha⟩ hn
  have h2 : ∀ m, n ≤ m → (r.state m).inb c ≠ [] := by
    intro m hm h
    have h3 := congrArg List.length (in_hist (r.exec m) c)
    rw [h, List.append_nil] at h3
    obtain ⟨t, h4, -⟩ := r.segment hm
    have h5 := (h1 m hm).2
    rw [h3, h4, arrived, List.flatMap_append, List.length_append] at h5
    rw [arrived] at h5
    omega
  obtain ⟨m, h5, h6⟩ := r.grows (hf.read c) (N := n) (fun m => (reads c (app (r.hist m))).flatten.length)
    (fun m hm => by
      rw [r.hist_succ, tcp_app_append, reads_append, List.flatten_append,
        List.length_append]
      omega)
    (fun m hm hd => by
      obtain ⟨x, o, h3, k, rfl⟩ := hd
      rw [r.hist_succ, tcp_app_append, reads_append, List.flatten_append,
        List.length_append, h3, Option.toList_some]
      have h4 := h2 m hm
      rcases r.move m with ⟨h5, _⟩ | ⟨a', o', h5, h6⟩
      · rw [h3] at h5; cases h5
      · rw [h3] at h5
        cases h5
        generalize r.state (m + 1) = z at h6
        cases move_of_step h6 with
        | broken _ _ _ _ ha => rcases ha with ha | ha <;> cases ha
        | read _ _ e o hp he =>
          rw [if_neg h4] at hp
          have h7 := List.length_pos_iff.mpr h4
          suffices 0 < (((r.state m).inb c).take (min k 1400)).length by
            simpa [app, reads] using this
          rw [List.length_take]
          omega)
    (fun M => by
      obtain ⟨m, h5, h6⟩ := Rt.Ep.waits_again (ep_fair hf) (ep_read hr) (ep_settles hb) c (max M n)
      obtain ⟨h7, h8⟩ := h1 m (by omega)
      have h9 := h2 m (by omega)
      have h6 : ((r.state m).ep.conns c).pc = .wait := h6.resolve_left (by
        intro h
        rw [show ((epRun r).state m) = (r.state m).ep from rfl, h7] at h
        cases h)
      refine ⟨m, by omega, .read c (.read 1), ?_⟩
      rcases receive_packet (((r.state m).inb c).take 1) with ⟨ms, h1, -⟩ | ⟨⟨er, h1⟩, -⟩ <;>
        simp [ReadStep, TcpNode.step, TcpNode.read, h7, h6, h9, possible, Tcp.recv, Tcp.readSize, does,
          Rt.Ep.step, Rt.Ep.packet, h1])
    (arrived c (r.hist n)).length
  exact absurd (h1 m h5).2 (Nat.not_lt.mpr h6)

/-- **C127.** If no task and no call is passed over, the operating system does not keep what has
arrived, and no handle stays full for ever, then all bytes that arrive on a connection are read by it,
and all messages of what was read are handed to the handles of their interfaces or dropped, or the
connection ends. -/
theorem C127_received_partial (hf : TcpNode.Fair r) (hr : TcpNode.Read r) (hb : TcpNode.Settles r)
    {c n : Nat} {a : Addr} (hc : Shown (app (r.hist n)) (.opened c a)) : ∃ m, n ≤ m ∧
    (ConnOver c (app (r.hist m)) ∨ ∃ p, arrived c (r.hist n) <+: p.flatten ∧
      p <+: reads c (app (r.hist m)) ∧ p.flatMap contents <+: settled c (app (r.hist m))) := by
  have over : ∀ {m}, n ≤ m → ((r.state m).ep.conns c).alive = false → ConnOver c (app (r.hist m)) := by
    intro m hm h
    refine Rt.Ep.over_of_dead (part (r.exec m)) ((Rt.Ep.conn_shown (part (r.exec m)) c).mpr ⟨a, ?_⟩) h
    obtain ⟨t, h1, -⟩ := r.segment hm
    obtain ⟨x, hx⟩ := hc
    exact ⟨x, by rw [h1, tcp_app_append]; exact List.mem_append_left _ hx⟩
  obtain ⟨m, h1, h2⟩ := run_takes hf hr hb (c := c) (n := n)
  rcases h2 with h2 | h2
  · exact ⟨m, h1, .inl (over h1 h2)⟩
  · obtain ⟨m', h3, h4⟩ := run_messages (epRun r) (ep_fair hf) (ep_read hr) (ep_settles hb) c m
    rcases h4 with h4 | h4
    · rw [epRun_hist, epRun_hist, Node.heard_eq] at h4
      refine ⟨m', by omega, .inr ⟨reads c (app (r.hist m)), ?_, ?_, h4⟩⟩
      · refine List.prefix_of_prefix_length_le (l₃ := arrived c (r.hist m)) ?_ ?_ h2
        · obtain ⟨t, h5, -⟩ := r.segment h1
          rw [h5, arrived, arrived, List.flatMap_append]
          exact List.prefix_append ..
        · rw [← in_hist (r.exec m) c]
          exact List.prefix_append ..
      · obtain ⟨t, h5, -⟩ := r.segment h3
        rw [h5, tcp_app_append, reads_append]
        exact List.prefix_append ..
    · exact ⟨m', by omega, .inl (over (by omega) h4)⟩

/-! ### Runs that come to rest -/

/-- A run that has come to rest is fair. -/
theorem tcp_rests_fair {tr : Spec.TcpNode.Trace} {s : TcpNode.State}
    (e : Exec TcpNode.step TcpNode.init tr s) (h : Resting s) :
    ∃ r : TcpNode.Run, TcpNode.Fair r ∧ TcpNode.Settles r ∧
      (∀ P : TcpNode.Action → Prop, (∀ x, P x → TcpNode.step s x = none) → r.FairTo P) ∧
      ∀ n, tr.length ≤ n → r.state n = s ∧ r.hist n = tr := by
  obtain ⟨r, hr⟩ := Endless.of_exec e
  have key : ∀ P : TcpNode.Action → Prop, (∀ x, P x → TcpNode.step s x = none) → r.FairTo P := by
    intro P hP hio
    obtain ⟨n, hn, a, o, s', h1, h2⟩ := hio tr.length
    rw [(hr n hn).1, hP a h1] at h2
    cases h2
  refine ⟨r, ⟨key _ ?_, fun l => key _ ?_, fun l => key _ ?_, fun l => key _ ?_, fun l => key _ ?_,
    fun l => key _ ?_, fun l => key _ ?_⟩, ⟨tr.length, ?_⟩, key,
    fun n hn => ⟨(hr n hn).1, (hr n hn).2.1⟩⟩
  · rintro x ⟨ok, rfl⟩; exact h _ (.inl ⟨_, rfl, by simp⟩)
  · rintro x rfl; exact h _ (.inl ⟨_, rfl, by simp⟩)
  · rintro x rfl; exact h _ (.inl ⟨_, rfl, by simp⟩)
  · rintro x rfl; exact h _ (.inl ⟨_, rfl, by simp⟩)
  · rintro x ⟨k, hk, rfl⟩; exact h _ (.inr (.inr ⟨_, _, hk, rfl⟩))
  · rintro x ⟨k, rfl⟩; exact h _ (.inr (.inl ⟨_, _, rfl⟩))
  · rintro x rfl; exact h _ (.inl ⟨_, rfl, by simp⟩)
  · rintro n hn ⟨a, o, h7, _⟩
    rw [(hr n hn).2.2] at h7
    cases h7

/-- A run in which nobody is passed over and everything is read: calls are made, a client connects,
messages arrive and are sent. -/
example : ∃ r : TcpNode.Run, TcpNode.Fair r ∧ TcpNode.Read r ∧ TcpNode.Settles r ∧ ∃ n,
    Shown (app (r.hist n)) (.opened 1 8) ∧ (requests (app (r.hist n))).length = 2 ∧
    accepted 0 (app (r.hist n)) = [Spec.Ep.msgB, Spec.Ep.msgB'] ∧
    arrived 1 (r.hist n) = frame Spec.Ep.msgA ++ frame Spec.Ep.msgB := by
  obtain ⟨tr, s, e, h⟩ := exec_by (step := TcpNode.step) (s := TcpNode.init) Spec.TcpNode.busy
    (fun tr s => Spec.TcpNode.calm s && decide (
      (.app (.accept 0 8), ⟨some (.accept 0 8, .opened 1 8), none⟩) ∈ tr ∧
      (requests (app tr)).length = 2 ∧ accepted 0 (app tr) = [Spec.Ep.msgB, Spec.Ep.msgB'] ∧
      arrived 1 tr = frame Spec.Ep.msgA ++ frame Spec.Ep.msgB)) (by decide +kernel)
  simp only [Bool.and_eq_true, decide_eq_true_eq] at h
  obtain ⟨h0, h1, h2⟩ := h
  obtain ⟨hr, hm⟩ := tcp_calm e h0
  obtain ⟨r, h5, h6, -, h7⟩ := tcp_rests_fair e hr
  refine ⟨r, h5, ⟨fun k N => ⟨max N tr.length, Nat.le_max_left .., ?_⟩,
    fun p N => ⟨max N tr.length, Nat.le_max_left .., ?_⟩⟩, h6, tr.length, ?_⟩
  · rw [(h7 _ (Nat.le_max_right ..)).1]
    exact hm.1 k
  · rw [(h7 _ (Nat.le_max_right ..)).1]
    exact hm.2 p
  · rw [(h7 _ (Nat.le_refl _)).2]
    exact ⟨⟨.accept 0 8, List.mem_filterMap.mpr ⟨_, h1, rfl⟩⟩, h2⟩

/-! ### A deadlock -/

/-- Seventeen messages for stub 0 arrive. Before it reads them, it sends one to a new peer, and somebody
asks for the interface it serves. -/
def Spec.TcpNode.deadActions : List TcpNode.Action :=
  [.app (.serve ⟨1, 1⟩), .app (.ep true), .app (.ep true), .app (.ep true), .app (.ep true),
    .app (.ep true), .app (.lisCmd 0), .app (.accept 0 8), .app (.lisShare 0),
    .arrive 0 (List.replicate 17 (frame Spec.Ep.msgA)).flatten, .read 0 (.read 1400)] ++
    List.replicate 33 (.app (.route 0)) ++
    [.app (.serve ⟨1, 1⟩), .app (.ep true), .app (.stubSend 0 9 Spec.Ep.msgA), .app (.stubStep 0),
      .app (.stubStep 0)]

/-- No task can go on, and no handle can be read from. -/
def Spec.TcpNode.halts (s : TcpNode.State) : Bool :=
  halted false s.ep && (List.range s.ep.connCount).all (fun c =>
    decide ((s.ep.conns c).pc ≠ .wait ∧ (s.ep.conns c).out = none)) &&
  (List.range s.ep.lisCount).all (fun l => decide ((s.ep.liss l).pc = .wait))

theorem tcp_halts {s : TcpNode.State} (hg : Rt.Ep.Good s.ep) (h : Spec.TcpNode.halts s = true) :
    Resting s ∧ (∀ k, TcpNode.step s (.app (.stubRecv k)) = none) ∧
      ∀ p, TcpNode.step s (.app (.proxyRecv p)) = none := by
  simp only [Spec.TcpNode.halts, halted, resting, Bool.and_eq_true, List.all_eq_true, List.mem_range,
    Option.isNone_iff_eq_none, decide_eq_true_eq] at h
  obtain ⟨⟨⟨⟨h1, h2⟩, ⟨⟨h3, h4⟩, h5⟩, h6⟩, h7⟩, h8⟩ := h
  have key : ∀ {x}, Rt.Ep.step false s.ep x = none → TcpNode.step s (.app x) = none := by
    intro x hx
    cases x <;> simp [TcpNode.step, does, hx]
  have hf := hg.fresh
  refine ⟨?_, fun k => key ?_, fun p => key ?_⟩
  · rintro a (⟨y, rfl, ⟨ok, rfl⟩ | ⟨l, rfl⟩ | ⟨l, rfl⟩ | ⟨c, rfl⟩ | ⟨c, rfl⟩ | ⟨k, rfl⟩⟩ | ⟨c, n, rfl⟩ |
      ⟨c, n, hn, rfl⟩)
    · cases ok
      · exact key h2
      · exact key h1
    · refine key ?_
      by_cases hl : l < s.ep.lisCount
      · simp [Rt.Ep.step, Rt.Ep.lisShare, h8 l hl]
      · simp [Rt.Ep.step, Rt.Ep.lisShare, hf.liss l (Nat.not_lt.mp hl)]
    · refine key ?_
      by_cases hl : l < s.ep.lisCount
      · exact h3 l hl
      · simp [Rt.Ep.step, Rt.Ep.lisCmd, hf.liss l (Nat.not_lt.mp hl)]
    · refine key ?_
      by_cases hl : c < s.ep.connCount
      · exact (h4 c hl).1.1.1
      · simp [Rt.Ep.step, Rt.Ep.route, hf.conns c (Nat.not_lt.mp hl)]
    · refine key ?_
      by_cases hl : c < s.ep.connCount
      · exact (h4 c hl).1.1.2
      · simp [Rt.Ep.step, Rt.Ep.connCmd, hf.conns c (Nat.not_lt.mp hl)]
    · refine key ?_
      by_cases hl : k < s.ep.stubCount
      · exact (h5 k hl).1
      · simp [Rt.Ep.step, Rt.Ep.stubStep, hf.stubs k (Nat.not_lt.mp hl)]
    · by_cases hl : c < s.ep.connCount
      · simp [TcpNode.step, TcpNode.read, (h7 c hl).1]
      · simp [TcpNode.step, TcpNode.read, hf.conns c (Nat.not_lt.mp hl)]
    · by_cases hl : c < s.ep.connCount
      · simp [TcpNode.step, TcpNode.write, (h7 c hl).2]
      · simp [TcpNode.step, TcpNode.write, hf.conns c (Nat.not_lt.mp hl)]
  · by_cases hl : k < s.ep.stubCount
    · exact (h5 k hl).2
    · simp [Rt.Ep.step, Rt.Ep.stubRecv, hf.stubs k (Nat.not_lt.mp hl)]
  · by_cases hl : p < s.ep.proxyCount
    · exact h6 p hl
    · simp [Rt.Ep.step, Rt.Ep.proxyRecv, hf.proxies p (Nat.not_lt.mp hl)]

/-- **C127** is false of users who read from a stub whenever they are not inside another call of it: the
deadlock of C104 comes about with the bytes of one read. None of the tasks ever goes on, though none is
passed over. -/
theorem C127_deadlock : ∃ r : TcpNode.Run, TcpNode.Fair r ∧ TcpNode.Settles r ∧
    (∀ k, r.FairTo (· = .app (.stubRecv k))) ∧ (∀ p, r.FairTo (· = .app (.proxyRecv p))) ∧
    ∃ k c n, ∀ m, n ≤ m →
      StubOpen k (app (r.hist m)) ∧ inCall k (app (r.hist m)) = true ∧
      ¬ requests (app (r.hist n)) <+: answered (app (r.hist m)) ∧
      ConnOpen c (app (r.hist m)) ∧
      ¬ heard c (app (r.hist n)) <+: settled c (app (r.hist m)) := by
  obtain ⟨tr, s, e, h⟩ := exec_by (step := TcpNode.step) (s := TcpNode.init) Spec.TcpNode.deadActions
    (fun tr s => Spec.TcpNode.halts s && decide ((s.ep.stubs 0).alive = true ∧ (s.ep.stubs 0).pc ≠ .idle ∧
      (answered (app tr)).length < (requests (app tr)).length ∧ (s.ep.conns 0).alive = true ∧
      (s.ep.conns 0).pc.pending.length = 1))
    (by decide +kernel)
  rw [Bool.and_eq_true, decide_eq_true_iff] at h
  have e1 := part e
  obtain ⟨hc, hk, hp⟩ := tcp_halts (Rt.Ep.good_hist e1).1 h.1
  obtain ⟨r, h1, h2, h3, h5⟩ := tcp_rests_fair e hc
  refine ⟨r, h1, h2, fun k => h3 _ ?_, fun p => h3 _ ?_, 0, 0, tr.length, fun m hm => ?_⟩
  · rintro x rfl; exact hk k
  · rintro x rfl; exact hp p
  rw [(h5 m hm).2, (h5 _ (Nat.le_refl _)).2]
  obtain ⟨-, h6, h7, h8, h9, h10⟩ := h
  refine ⟨(Rt.Ep.stub_open_iff e1 0).mp h6, (Rt.Ep.busy_iff e1 0).mp h7,
    fun h => absurd h.length_le (by omega), (Rt.Ep.conn_open_iff e1 0).mp h9, fun h => ?_⟩
  have := h.length_le
  rw [← (Rt.Ep.line e1).alive 0 h9, List.length_append] at this
  omega

end

end Rsomeip
