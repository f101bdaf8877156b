import Verif.Lemmas.GoesRun
import Verif.Props.Rt.LiveTcpNet

/-! # Everything can get done (C129)

Whatever has happened, if no call of `send_to` is in progress, then tasks that go on and users that read are
enough to get everything done. `Node.Goes`, `TcpNode.Goes` and `TcpNet.Goes` say what "going on" is: no
further calls, nothing arrives from the outside, nothing fails. -/

namespace Rsomeip

open Rt Spec
open Spec.Ep (Shown accepted wireForm onWire heard settled contents requests answered inCall ConnOver)
open Spec.Node (reads)

section Monotone

theorem onWire_grows (c : Nat) (t u : Spec.Ep.Trace) : onWire c t <+: onWire c (t ++ u) := by
  rw [onWire, onWire, List.filterMap_append]; exact List.prefix_append ..

theorem settled_grows (c : Nat) (t u : Spec.Ep.Trace) : settled c t <+: settled c (t ++ u) := by
  rw [Rt.Ep.settled_append]; exact List.prefix_append ..

theorem answered_grows (t u : Spec.Ep.Trace) : answered t <+: answered (t ++ u) := by
  rw [answered, answered, List.filterMap_append]; exact List.prefix_append ..

theorem over_grows {c : Nat} {t : Spec.Ep.Trace} (u : Spec.Ep.Trace) (h : ConnOver c t) :
    ConnOver c (t ++ u) := by
  unfold ConnOver at h ⊢
  grind

end Monotone

/-- **C129**, UDP: from every point of every history at which no call of `send_to` is in progress there is a
way to go on in which nobody is passed over, all users read, and nothing else is needed. -/
theorem C129_udp_goes {tr : Spec.Node.Trace} {s : Rt.Node.State} (e : Exec Node.step Node.init tr s)
    (h : ∀ k, inCall k (Spec.Node.app tr) = false) :
    ∃ r : Node.Run, Node.Fair r ∧ Node.Read r ∧ Node.Settles r ∧ r.state tr.length = s ∧
      r.hist tr.length = tr ∧ ∀ n x, tr.length ≤ n → r.act n = some x → Node.Goes x :=
  Rt.Node.goes_on e fun k => (Rt.Ep.idle_iff (Rt.Node.parts e).1 k).mpr (h k)

open Spec.Node Rt.Node in
/-- **C129**, UDP: from every point of every history at which no call of `send_to` is in progress, tasks that
go on and users that read lead to a point where every call of `serve` and `proxy` has returned, every
datagram that the socket received was put into a channel or dropped, every connection that the socket made
was accepted, every message that `send` or `send_to` accepted was handed to the operating system, and
everything in the channels was read and handed to the handles of its interface or dropped; unless the
connection has ended. -/
theorem C129_udp {tr : Spec.Node.Trace} {s : Rt.Node.State} (e : Exec Node.step Node.init tr s)
    (h : ∀ k, inCall k (app tr) = false) : ∃ u s', Exec Node.step s u s' ∧ (∀ x ∈ u, Node.Goes x) ∧
    requests (app tr) <+: answered (app (tr ++ u)) ∧
    Udp.arrived (socket tr) <+: handled (socket (tr ++ u)) ∧
    (∀ b, Udp.offered b (socket tr) <+: Udp.takenFrom b (socket (tr ++ u)) ∨
      (.dropListener b, .none) ∈ socket (tr ++ u)) ∧
    (∀ c, (accepted c (app tr)).map wireForm <+: onWire c (app (tr ++ u)) ∨ ConnOver c (app (tr ++ u))) ∧
    ∀ c a, Shown (app tr) (.opened c a) → ConnOver c (app (tr ++ u)) ∨ ∃ p,
      p.length = (Udp.into (s.chan c) (socket tr)).length ∧
      Udp.Shows p (Udp.into (s.chan c) (socket tr)) ∧ p <+: Udp.seen (s.chan c) (socket (tr ++ u)) ∧
      (p.filterMap id).flatMap contents <+: settled c (app (tr ++ u)) := by
  obtain ⟨r, hf, hr, hb, h1, h2, h3⟩ := C129_udp_goes e h
  have grow : ∀ {n m}, n ≤ m → ∃ t, r.hist m = r.hist n ++ t := fun h =>
    let ⟨t, ht, _⟩ := r.segment h; ⟨t, ht⟩
  obtain ⟨m1, l1, q1⟩ := C126_requests_partial hf hr hb tr.length
  obtain ⟨m2, l2, q2⟩ := C126_datagrams r hf.task tr.length
  obtain ⟨m3, l3, q3⟩ := Endless.together (fun c m => (accepted c (app tr)).map wireForm <+:
      onWire c (app (r.hist m)) ∨ ConnOver c (app (r.hist m))) (n := tr.length) (K := s.ep.connCount)
    (fun c n m hn hq => by
      obtain ⟨t, ht⟩ := grow hn
      rw [ht, app_append]
      exact hq.imp (fun q => q.trans (onWire_grows ..)) (over_grows _))
    (fun c hc => .inl (by
      rw [((Rt.Ep.wire (parts e).1).new c hc).2]
      exact List.nil_prefix))
    (fun c => by
      have := C126_sent r c (hf.send c) tr.length
      rwa [h2] at this)
  obtain ⟨m4, l4, q4⟩ := Endless.together (fun c m => ∀ a, Shown (app tr) (.opened c a) →
      ConnOver c (app (r.hist m)) ∨ ∃ p,
        p.length = (Udp.into (s.chan c) (socket tr)).length ∧
        Udp.Shows p (Udp.into (s.chan c) (socket tr)) ∧ p <+: Udp.seen (s.chan c) (socket (r.hist m)) ∧
        (p.filterMap id).flatMap contents <+: settled c (app (r.hist m)))
    (n := tr.length) (K := s.ep.connCount)
    (fun c n m hn hq a ha => by
      obtain ⟨t, ht⟩ := grow hn
      rw [ht, app_append, _root_.Rsomeip.socket_append, seen_append]
      refine (hq a ha).imp (over_grows _) ?_
      rintro ⟨p, p1, p2, p3, p4⟩
      exact ⟨p, p1, p2, p3.trans (List.prefix_append ..), p4.trans (settled_grows ..)⟩)
    (fun c hc a ha => absurd ((Rt.Ep.conn_shown (parts e).1 c).mpr ⟨a, ha⟩) (by omega))
    (fun c => by
      by_cases hc : ∃ a, Shown (app tr) (.opened c a)
      · obtain ⟨a, ha⟩ := hc
        have := C126_received_partial hf hr hb (c := c) (n := tr.length) (a := a) (by rw [h2]; exact ha)
        rw [h1, h2] at this
        obtain ⟨m, l, q⟩ := this
        exact ⟨m, l, fun _ _ => q⟩
      · exact ⟨tr.length, Nat.le_refl _, fun a ha => absurd ⟨a, ha⟩ hc⟩)
  obtain ⟨m5, l5, q5⟩ := Endless.together (fun b m =>
      Udp.offered b (socket tr) <+: Udp.takenFrom b (socket (r.hist m)) ∨
        (.dropListener b, .none) ∈ socket (r.hist m))
    (n := tr.length) (K := s.udp.backlogCount)
    (fun b n m hn hq => by
      obtain ⟨t, ht⟩ := grow hn
      rw [ht, _root_.Rsomeip.socket_append, takenFrom_append]
      exact hq.imp (fun q => q.trans (List.prefix_append ..)) (List.mem_append_left _))
    (fun b hb => .inl (by
      rw [((Rt.Udp.queues (parts e).2).low b hb).1]
      exact List.nil_prefix))
    (fun b => by
      have := C126_accepted hf hb b tr.length
      rwa [h2] at this)
  obtain ⟨u, hu, he, hx⟩ := r.segment_acts (n := tr.length) (m := max m1 (max m2 (max m3 (max m4 m5))))
    (by omega)
  rw [h1] at he
  rw [h2] at hu
  refine ⟨u, _, he, fun x hx' => ?_, ?_, ?_, fun b => ?_, fun c => ?_, fun c a ha => ?_⟩
  · obtain ⟨t₁, t₂, ht⟩ := List.append_of_mem hx'
    obtain ⟨j, j1, j2, -⟩ := hx t₁ x t₂ ht
    exact h3 j x j1 j2
  all_goals rw [← hu]
  · obtain ⟨t, ht⟩ := grow (show m1 ≤ max m1 (max m2 (max m3 (max m4 m5))) by omega)
    rw [h2] at q1
    rw [ht, app_append]
    exact q1.trans (answered_grows ..)
  · obtain ⟨t, ht⟩ := grow (show m2 ≤ max m1 (max m2 (max m3 (max m4 m5))) by omega)
    rw [h2] at q2
    rw [ht, _root_.Rsomeip.socket_append, handled, Udp.fates, List.filterMap_append, List.map_append]
    exact q2.trans (List.prefix_append ..)
  · obtain ⟨t, ht⟩ := grow (show m5 ≤ max m1 (max m2 (max m3 (max m4 m5))) by omega)
    rw [ht, _root_.Rsomeip.socket_append, takenFrom_append]
    exact (q5 b).imp (fun q => q.trans (List.prefix_append ..)) (List.mem_append_left _)
  · obtain ⟨t, ht⟩ := grow (show m3 ≤ max m1 (max m2 (max m3 (max m4 m5))) by omega)
    rw [ht, app_append]
    exact (q3 c).imp (fun q => q.trans (onWire_grows ..)) (over_grows _)
  · obtain ⟨t, ht⟩ := grow (show m4 ≤ max m1 (max m2 (max m3 (max m4 m5))) by omega)
    rw [ht, app_append, _root_.Rsomeip.socket_append, seen_append]
    refine (q4 c a ha).imp (over_grows _) ?_
    rintro ⟨p, p1, p2, p3, p4⟩
    exact ⟨p, p1, p2, p3.trans (List.prefix_append ..), p4.trans (settled_grows ..)⟩

theorem idle_all {dg : Bool} {tr : Spec.Ep.Trace} {s : Rt.Ep.State}
    (e : Exec (Rt.Ep.step dg) Rt.Ep.init tr s) (h : ∀ k, k < s.stubCount → (s.stubs k).pc = .idle) (k : Nat) :
    inCall k tr = false := by
  refine (Rt.Ep.idle_iff e k).mp ?_
  by_cases hk : k < s.stubCount
  · exact h k hk
  · rw [(Rt.Ep.good_hist e).1.fresh.stubs k (Nat.not_lt.mp hk)]

/-- Seventeen messages have come for a stub with room for sixteen, so that its connection waits, and so do
the endpoint and a call of `serve`. No call of `send_to` is in progress. -/
example : ∃ tr s, Exec Node.step Node.init tr s ∧ (∀ k, inCall k (Spec.Node.app tr) = false) ∧
    (requests (Spec.Node.app tr)).length = 2 ∧ (answered (Spec.Node.app tr)).length = 1 ∧
    (s.ep.conns 0).pc.pending.length = 1 ∧
    (∀ ok, Node.step s (.app (.ep ok)) = none) ∧ Node.step s (.app (.route 0)) = none := by
  obtain ⟨tr, s, e, h⟩ := exec_by (step := Node.step) (s := Node.init) (Spec.Node.deadActions.take 50)
    (fun tr s => decide ((∀ k, k < s.ep.stubCount → (s.ep.stubs k).pc = .idle) ∧
      (requests (Spec.Node.app tr)).length = 2 ∧ (answered (Spec.Node.app tr)).length = 1 ∧
      (s.ep.conns 0).pc.pending.length = 1) && ((Node.step s (.app (.ep true))).isNone &&
      (Node.step s (.app (.ep false))).isNone && (Node.step s (.app (.route 0))).isNone))
    (by decide +kernel)
  simp only [Bool.and_eq_true, decide_eq_true_iff, Option.isNone_iff_eq_none] at h
  obtain ⟨⟨h1, h2⟩, ⟨h3, h4⟩, h5⟩ := h
  exact ⟨tr, s, e, idle_all (Rt.Node.parts e).1 h1, h2.1, h2.2.1, h2.2.2,
    fun ok => by cases ok <;> assumption, h5⟩

open Spec.Node Rt.Node in
/-- While a call of `send_to` is in progress the same is false: in the deadlock of C126 nothing that the
tasks, the call and reading users do makes the calls return. -/
theorem C129_udp_call : ∃ tr s, Exec Node.step Node.init tr s ∧ (∃ k, inCall k (app tr) = true) ∧
    ∀ u s', Exec Node.step s u s' → (∀ x ∈ u, Node.Goes x ∨ ∃ k, x.1 = .app (.stubStep k)) →
      ¬ requests (app tr) <+: answered (app (tr ++ u)) := by
  obtain ⟨tr, s, e, h⟩ := exec_by (step := Node.step) (s := Node.init) Spec.Node.deadActions
    (fun tr s => calmNode s && decide ((s.ep.stubs 0).pc ≠ .idle ∧
      (answered (app tr)).length < (requests (app tr)).length))
    (by decide +kernel)
  rw [Bool.and_eq_true, decide_eq_true_iff] at h
  obtain ⟨hc, h1, h2⟩ := h
  obtain ⟨c1, c2, c3⟩ := calm_still (Rt.Ep.good_hist (parts e).1).1 hc
  refine ⟨tr, s, e, ⟨0, (Rt.Ep.busy_iff (parts e).1 0).mp h1⟩, fun u s' e' hu => ?_⟩
  suffices key : u = [] by
    subst key
    rw [List.append_nil]
    exact fun hp => absurd hp.length_le (Nat.not_le.mpr h2)
  have still : ∀ a o, (Node.Goes (a, o) ∨ ∃ k, a = .app (.stubStep k)) → Node.step s a = none := by
    rintro a o (ha | ⟨k, rfl⟩)
    · cases a with
      | app x => cases x <;> first | exact c1 _ rfl | exact c2 _ | exact c3 _ | exact ha.elim
      | task => exact c1 _ rfl
      | _ => exact ha.elim
    · exact c1 _ rfl
  suffices key : u = [] ∧ s' = s from key.1
  induction e' with
  | nil => exact ⟨rfl, rfl⟩
  | @snoc t s₁ s₂ a o e₁ hs ih =>
    obtain ⟨rfl, rfl⟩ := ih fun x hx => hu x (List.mem_append_left _ hx)
    rw [still a o (hu (a, o) (by simp))] at hs
    cases hs

/-- **C129**, TCP: from every point of every history at which no call of `send_to` is in progress there is a
way to go on in which nobody is passed over, all users read, and nothing else is needed. -/
theorem C129_tcp_goes {tr : Spec.TcpNode.Trace} {s : Rt.TcpNode.State}
    (e : Exec TcpNode.step TcpNode.init tr s) (h : ∀ k, inCall k (Spec.TcpNode.app tr) = false) :
    ∃ r : TcpNode.Run, TcpNode.Fair r ∧ TcpNode.Read r ∧ TcpNode.Settles r ∧ r.state tr.length = s ∧
      r.hist tr.length = tr ∧ ∀ n x, tr.length ≤ n → r.act n = some x → TcpNode.Goes x.1 :=
  Rt.TcpNode.goes_on e fun k => (Rt.Ep.idle_iff (Rt.TcpNode.part e) k).mpr (h k)

theorem written_append (c : Nat) (t u : Spec.TcpNode.Trace) : Spec.TcpNode.written c (t ++ u) =
    Spec.TcpNode.written c t ++ Spec.TcpNode.written c u := by
  simp only [Spec.TcpNode.written, List.flatMap_append]

open Spec.TcpNode in
/-- Nothing fails while everything goes on. -/
theorem goes_unbroken {c : Nat} {t u : Spec.TcpNode.Trace} (hu : ∀ x ∈ u, TcpNode.Goes x.1)
    (h : Broke c (t ++ u)) : Broke c t := by
  rcases h with ⟨x, hx, h⟩ | ⟨x, hx, h⟩
  · rcases List.mem_append.mp hx with hx | hx
    · exact .inl ⟨x, hx, h⟩
    · have := hu x hx
      rcases h with h | h <;> rw [h] at this <;> exact this.elim
  · rcases List.mem_append.mp hx with hx | hx
    · exact .inr ⟨x, hx, h⟩
    · have := hu x hx
      rcases h with h | h <;> rw [h] at this <;> exact this.elim

open Spec.TcpNode Rt.TcpNode in
/-- **C129**, TCP: from every point of every history at which no call of `send_to` is in progress, tasks that
go on and users that read lead to a point where every call of `serve` and `proxy` has returned, every
message that `send` or `send_to` accepted was written to the stream, and everything that had arrived was
read and handed to the handles of its interface or dropped; unless an error had been reported on the
connection, or it has ended. -/
theorem C129_tcp {tr : Spec.TcpNode.Trace} {s : Rt.TcpNode.State}
    (e : Exec TcpNode.step TcpNode.init tr s) (h : ∀ k, inCall k (app tr) = false) :
    ∃ u s', Exec TcpNode.step s u s' ∧ (∀ x ∈ u, TcpNode.Goes x.1) ∧
    requests (app tr) <+: answered (app (tr ++ u)) ∧
    (∀ c, ((accepted c (app tr)).map wireForm).flatten <+: written c (tr ++ u) ∨ Broke c tr) ∧
    ∀ c a, Shown (app tr) (.opened c a) → ConnOver c (app (tr ++ u)) ∨ ∃ p,
      arrived c tr <+: p.flatten ∧ p <+: reads c (app (tr ++ u)) ∧
      p.flatMap contents <+: settled c (app (tr ++ u)) := by
  obtain ⟨r, hf, hr, hb, h1, h2, h3⟩ := C129_tcp_goes e h
  have grow : ∀ {n m}, n ≤ m → ∃ t, r.hist m = r.hist n ++ t := fun h =>
    let ⟨t, ht, _⟩ := r.segment h; ⟨t, ht⟩
  obtain ⟨m1, l1, q1⟩ := C127_requests_partial hf hr hb tr.length
  obtain ⟨m3, l3, q3⟩ := Endless.together (fun c m => ((accepted c (app tr)).map wireForm).flatten <+:
      written c (r.hist m) ∨ Broke c tr) (n := tr.length) (K := s.ep.connCount)
    (fun c n m hn hq => by
      obtain ⟨t, ht⟩ := grow hn
      rw [ht, written_append]
      exact hq.imp (fun q => q.trans (List.prefix_append ..)) id)
    (fun c hc => .inl (by
      rw [((Rt.Ep.wire (part e)).new c hc).2]
      exact List.nil_prefix))
    (fun c => by
      obtain ⟨m, l, q⟩ := C127_sent r c (hf.cmd c) (hf.write c) tr.length
      rw [h2] at q
      refine ⟨m, l, q.imp_right fun hq => ?_⟩
      obtain ⟨u, hu, -, hx⟩ := r.segment_acts l
      rw [hu, h2] at hq
      refine goes_unbroken (fun x hx' => ?_) hq
      obtain ⟨t₁, t₂, ht⟩ := List.append_of_mem hx'
      obtain ⟨j, j1, j2, -⟩ := hx t₁ x t₂ ht
      exact h3 j x j1 j2)
  obtain ⟨m4, l4, q4⟩ := Endless.together (fun c m => ∀ a, Shown (app tr) (.opened c a) →
      ConnOver c (app (r.hist m)) ∨ ∃ p, arrived c tr <+: p.flatten ∧ p <+: reads c (app (r.hist m)) ∧
        p.flatMap contents <+: settled c (app (r.hist m)))
    (n := tr.length) (K := s.ep.connCount)
    (fun c n m hn hq a ha => by
      obtain ⟨t, ht⟩ := grow hn
      rw [ht, tcp_app_append, reads_append]
      refine (hq a ha).imp (over_grows _) ?_
      rintro ⟨p, p1, p3, p4⟩
      exact ⟨p, p1, p3.trans (List.prefix_append ..), p4.trans (settled_grows ..)⟩)
    (fun c hc a ha => absurd ((Rt.Ep.conn_shown (part e) c).mpr ⟨a, ha⟩) (by omega))
    (fun c => by
      by_cases hc : ∃ a, Shown (app tr) (.opened c a)
      · obtain ⟨a, ha⟩ := hc
        have := C127_received_partial hf hr hb (c := c) (n := tr.length) (a := a) (by rw [h2]; exact ha)
        rw [h2] at this
        obtain ⟨m, l, q⟩ := this
        exact ⟨m, l, fun _ _ => q⟩
      · exact ⟨tr.length, Nat.le_refl _, fun a ha => absurd ⟨a, ha⟩ hc⟩)
  obtain ⟨u, hu, he, hx⟩ := r.segment_acts (n := tr.length) (m := max m1 (max m3 m4)) (by omega)
  rw [h1] at he
  rw [h2] at hu
  refine ⟨u, _, he, fun x hx' => ?_, ?_, fun c => ?_, fun c a ha => ?_⟩
  · obtain ⟨t₁, t₂, ht⟩ := List.append_of_mem hx'
    obtain ⟨j, j1, j2, -⟩ := hx t₁ x t₂ ht
    exact h3 j x j1 j2
  all_goals rw [← hu]
  · obtain ⟨t, ht⟩ := grow (show m1 ≤ max m1 (max m3 m4) by omega)
    rw [h2] at q1
    rw [ht, tcp_app_append]
    exact q1.trans (answered_grows ..)
  · obtain ⟨t, ht⟩ := grow (show m3 ≤ max m1 (max m3 m4) by omega)
    rw [ht, written_append]
    exact (q3 c).imp (fun q => q.trans (List.prefix_append ..)) id
  · obtain ⟨t, ht⟩ := grow (show m4 ≤ max m1 (max m3 m4) by omega)
    rw [ht, tcp_app_append, reads_append]
    refine (q4 c a ha).imp (over_grows _) ?_
    rintro ⟨p, p1, p3, p4⟩
    exact ⟨p, p1, p3.trans (List.prefix_append ..), p4.trans (settled_grows ..)⟩

/-- Seventeen messages have come for a stub with room for sixteen, so that its connection waits, and so do
the endpoint and a call of `serve`. No call of `send_to` is in progress. -/
example : ∃ tr s, Exec TcpNode.step TcpNode.init tr s ∧
    (∀ k, inCall k (Spec.TcpNode.app tr) = false) ∧
    (requests (Spec.TcpNode.app tr)).length = 2 ∧ (answered (Spec.TcpNode.app tr)).length = 1 ∧
    (s.ep.conns 0).pc.pending.length = 1 ∧
    (∀ ok, TcpNode.step s (.app (.ep ok)) = none) ∧ TcpNode.step s (.app (.route 0)) = none := by
  obtain ⟨tr, s, e, h⟩ := exec_by (step := TcpNode.step) (s := TcpNode.init)
    (Spec.TcpNode.deadActions.take 46)
    (fun tr s => decide ((∀ k, k < s.ep.stubCount → (s.ep.stubs k).pc = .idle) ∧
      (requests (Spec.TcpNode.app tr)).length = 2 ∧ (answered (Spec.TcpNode.app tr)).length = 1 ∧
      (s.ep.conns 0).pc.pending.length = 1) && ((TcpNode.step s (.app (.ep true))).isNone &&
      (TcpNode.step s (.app (.ep false))).isNone && (TcpNode.step s (.app (.route 0))).isNone))
    (by decide +kernel)
  simp only [Bool.and_eq_true, decide_eq_true_iff, Option.isNone_iff_eq_none] at h
  obtain ⟨⟨h1, h2⟩, ⟨h3, h4⟩, h5⟩ := h
  exact ⟨tr, s, e, idle_all (Rt.TcpNode.part e) h1, h2.1, h2.2.1, h2.2.2,
    fun ok => by cases ok <;> assumption, h5⟩

/-- **C129**, several programs: from every point of every history at which no call of `send_to` is in
progress there is a way to go on in which nobody is passed over, all users read, and nothing else is
needed. -/
theorem C129_net_goes {own : Addr → Bool} {tr : Spec.TcpNet.Trace} {s : Rt.TcpNet.State}
    (e : Exec (TcpNet.step own) TcpNet.init tr s)
    (h : ∀ n k, inCall k (Spec.TcpNode.app (Spec.TcpNet.at_ n tr)) = false) :
    ∃ r : TcpNet.Run own, TcpNet.Fair r ∧ (∀ n, TcpNet.Read r n) ∧ (∀ n, TcpNet.Settles r n) ∧
      r.state tr.length = s ∧ r.hist tr.length = tr ∧
      ∀ t x, tr.length ≤ t → r.act t = some x → TcpNet.Goes own (r.hist t) x.1 :=
  Rt.TcpNet.goes_on e fun n k =>
    (Rt.Ep.idle_iff (Rt.TcpNode.part (Rt.TcpNet.each e n)) k).mpr (h n k)

open Spec.TcpNode Spec.TcpNet in
/-- **C129**, several programs: from every point of every history at which no call of `send_to` is in
progress, tasks that go on and users that read lead to a point where everything that `send` and `send_to`
accepted at one end of a connection was read at the other end, and its messages were handed to the handles of
their interfaces or dropped; unless the connection is broken. The connections between the programs come in
pairs of ends; every one that was accepted from another program has its other end there. -/
theorem C129_net {own : Addr → Bool} {tr : Spec.TcpNet.Trace} {s : Rt.TcpNet.State}
    (e : Exec (TcpNet.step own) TcpNet.init tr s) (h : ∀ n k, inCall k (app (at_ n tr)) = false) :
    ∃ pair : Addr → Nat → Option (Addr × Nat), Pairs pair tr ∧
      (∀ n l c m, own m = true → (.accept l m, .opened c m) ∈ app (at_ n tr) →
        ∃ d, pair n c = some (m, d)) ∧
      ∀ n c m d, pair n c = some (m, d) → ∃ u s', Exec (TcpNet.step own) s u s' ∧
        (∀ u₁ x u₂, u = u₁ ++ x :: u₂ → TcpNet.Goes own (tr ++ u₁) x.1) ∧
        (Useless n c m d (tr ++ u) ∨
          ∃ p, ((accepted d (app (at_ m tr))).map wireForm).flatten <+: p.flatten ∧
            p <+: reads c (app (at_ n (tr ++ u))) ∧
            p.flatMap contents <+: settled c (app (at_ n (tr ++ u)))) := by
  obtain ⟨r, hf, hr, hb, h1, h2, h3⟩ := C129_net_goes e h
  have hc := run_coupled r
  have hp := hc.pairs tr.length
  rw [h1, h2] at hp
  refine ⟨s.peer, hp, fun n l c m hm ha => accept_paired e hm ha, fun n c m d hd => ?_⟩
  obtain ⟨v, h4, h5⟩ := run_bytes hf (hr n) (hb n) (t := tr.length) (by rw [h1]; exact hd)
  obtain ⟨u, hu, he, hx⟩ := r.segment_acts h4
  rw [h1] at he
  rw [h2] at hu h5
  rw [hu] at h5
  refine ⟨u, _, he, fun u₁ x u₂ hu' => ?_, h5⟩
  obtain ⟨j, j1, j2, j3⟩ := hx u₁ x u₂ hu'
  rw [← h2, ← j3]
  exact h3 j x j1 j2

/-- One program has written a part of a message, a part of which has arrived; the rest can still be written,
arrive, and be read. -/
example : ∃ tr s, Exec (TcpNet.step Spec.Net.two) TcpNet.init tr s ∧
    (∀ n k, inCall k (Spec.TcpNode.app (Spec.TcpNet.at_ n tr)) = false) ∧
    (.accept 0 5, .opened 0 5) ∈ Spec.TcpNode.app (Spec.TcpNet.at_ 6 tr) ∧
    accepted 0 (Spec.TcpNode.app (Spec.TcpNet.at_ 5 tr)) = [Spec.Ep.msgA] ∧
    reads 0 (Spec.TcpNode.app (Spec.TcpNet.at_ 6 tr)) = [] ∧
    ¬ Spec.TcpNet.Useless 6 0 5 0 tr := by
  obtain ⟨tr, s, e, h⟩ := exec_by (step := TcpNet.step Spec.Net.two) (s := TcpNet.init)
    (Spec.TcpNet.dialogue.take 21)
    (fun tr s => Spec.TcpNode.errorless (Spec.TcpNet.at_ 5 tr) && decide (
      (∀ x ∈ tr, x.1.1 = 5 ∨ x.1.1 = 6) ∧
      (∀ k, k < (s.nodes 5).ep.stubCount → ((s.nodes 5).ep.stubs k).pc = .idle) ∧
      (∀ k, k < (s.nodes 6).ep.stubCount → ((s.nodes 6).ep.stubs k).pc = .idle) ∧
      ((s.nodes 6).ep.conns 0).alive = true ∧
      (∀ x ∈ Spec.TcpNet.at_ 6 tr, (match x.1 with | .shut _ => false | _ => true) = true) ∧
      (.accept 0 5, .opened 0 5) ∈ Spec.TcpNode.app (Spec.TcpNet.at_ 6 tr) ∧
      accepted 0 (Spec.TcpNode.app (Spec.TcpNet.at_ 5 tr)) = [Spec.Ep.msgA] ∧
      reads 0 (Spec.TcpNode.app (Spec.TcpNet.at_ 6 tr)) = []))
    (by decide +kernel)
  simp only [Bool.and_eq_true, decide_eq_true_eq] at h
  obtain ⟨g2, g0, i5, i6, g4, g5, g6, g7, g8⟩ := h
  refine ⟨tr, s, e, fun n k => ?_, g6, g7, g8, ?_⟩
  · by_cases h5 : n = 5
    · subst h5; exact idle_all (Rt.TcpNode.part (Rt.TcpNet.each e 5)) i5 k
    by_cases h6 : n = 6
    · subst h6; exact idle_all (Rt.TcpNode.part (Rt.TcpNet.each e 6)) i6 k
    · have : Spec.TcpNet.at_ n tr = [] := by
        unfold Spec.TcpNet.at_
        rw [List.filterMap_eq_nil_iff]
        intro x hx
        rw [if_neg]
        rintro rfl
        exact (g0 x hx).elim h5 h6
      rw [this]; rfl
  · exact useful_always e g2 g4 g5

end Rsomeip
