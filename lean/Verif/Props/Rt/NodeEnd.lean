import Verif.Lemmas.NodeLive
import Verif.Props.Rt.Done
import Verif.Props.Rt.NodeOpen

/-! # C90 and C91: the end of an endpoint and of its connections, on a UDP socket -/

namespace Rsomeip

open Rt Spec Spec.Ep Spec.Node
open Someip (InterfaceId)

/-- The user has no `Endpoint`, and the operating system's socket has failed. -/
def Spec.Node.AllGone (tr : Spec.Node.Trace) : Prop :=
  held (app tr) = false ∧ (.failure, .none) ∈ socket tr

section
variable {tr : Spec.Node.Trace} {s : Node.State}

theorem failed_stopped {t : Spec.Udp.Trace} {s : Udp.State}
    (e : Exec Udp.step Udp.init t s) (h : (.failure, .none) ∈ t) : s.pc = .stopped := by
  induction e with
  | nil => cases h
  | @snoc t s s' a o e hs ih =>
    rcases List.mem_append.mp h with h | h
    · have := ih h
      cases Udp.move_of_step hs <;> grind
    · rw [List.mem_singleton] at h
      cases h
      generalize hx : Udp.Action.failure = x at hs
      cases Udp.move_of_step hs <;> first | rfl | cases hx

theorem all_over (e : Exec Node.step Node.init tr s) (hr : Resting s) (hm : Room s) (hg : AllGone tr) :
    Over s.ep ∧ s.udp.pc = .stopped ∧ s.udp.owner = false := by
  obtain ⟨e1, e2⟩ := Node.parts e
  have hq := quiet e hr hm
  have hgd := (Ep.good_hist e1).1
  have hh := (Ep.held_eq e1).trans hg.1
  have hp : s.ep.pc = .stopped := by
    refine (hq.pc hgd.fresh hgd.readers).resolve_right fun h => ?_
    rcases (Ep.epStrong_iff hgd.fresh).mp h.2.2 with h | ⟨k, a, m, h⟩
    · rw [hh] at h; cases h
    · rw [hq.stubIdle e1 k] at h
      rcases h with h | ⟨_, h⟩ | ⟨_, h⟩ <;> cases h
  have hl := Node.link e
  have ho : s.udp.owner = false := by
    cases h : s.udp.owner with
    | false => rfl
    | true => exact absurd hp (hl.owner.mp h)
  have hu := failed_stopped e2 hg.2
  have hs : s.udp.shared = false := by simp [Udp.State.shared, ho, hu]
  have hn := (resting_iff s).mp hr
  refine ⟨⟨hp, fun l => ?_, fun c => ?_⟩, hu, ho⟩
  · refine Bool.eq_false_iff.mpr fun ha => ?_
    rw [(hn.backlog hl hgd ha (hq.lisWaits hgd.fresh l)).2.2] at hs
    cases hs
  · refine Bool.eq_false_iff.mpr fun ha => ?_
    have := (hn.chan hl hgd ha (hq.waits hgd.readers c)).2.2
    simp [Udp.State.hasSender, hs, hu] at this

/-- **C90.** After the `Endpoint` was dropped and the operating system's socket has failed, when nothing
can happen any more and no queue is full, all tasks have ended, even if stubs and proxies are still
there: the endpoint and every connection that was opened have ended, and the socket, all its listeners and
all its receivers have been dropped. -/
theorem C90_over (e : Exec Node.step Node.init tr s) (hr : Resting s) (hm : Room s) (hg : AllGone tr) :
    (∃ ok, (.ep ok, .ended) ∈ app tr) ∧ (∀ c a, Shown (app tr) (.opened c a) → ConnOver c (app tr)) ∧
      (.close, .none) ∈ socket tr ∧ (∀ l, ¬ Spec.Udp.ListenerOpen l (socket tr)) ∧
      ∀ c, ¬ Spec.Udp.ReceiverOpen c (socket tr) := by
  obtain ⟨e1, e2⟩ := Node.parts e
  obtain ⟨⟨h1, h2, h3⟩, -, h4⟩ := all_over e hr hm hg
  obtain ⟨ht, -, -⟩ := Udp.exec_inv e2
  have hl := Node.link e
  refine ⟨(Ep.ended_iff e1).mp h1, fun c a hc => ?_, (Udp.closed_iff e2).mpr h4, fun l hk => ?_,
    fun c hk => ?_⟩
  · exact Ep.over_of_dead e1 ((Ep.conn_shown e1 c).mpr ⟨a, hc⟩) (h3 c)
  · have hb := (Udp.listener_open_iff e2 l).mp hk
    have hlt : l < s.udp.backlogCount := Nat.lt_of_not_le fun h => by
      rw [(ht.backlogs l h).1] at hb; cases hb
    obtain ⟨j, h5, rfl⟩ := Node.owned_backlog e l hlt
    rw [(hl.backlog j h5).2, h2 j] at hb
    cases hb
  · obtain ⟨h5, h6⟩ := (Udp.receiver_open_iff e2 c).mp hk
    obtain ⟨d, h7, rfl⟩ := Node.owned e c h6
    rw [(hl.chan d h7).2.2.2, h3 d] at h5
    cases h5

theorem over_shut {dg : Bool} {t : Spec.Ep.Trace} {s : Ep.State} (e : Exec (Ep.step dg) Ep.init t s)
    (ho : Over s) (i : Nat) : s.ifStrong i = false := by
  have hg := (Ep.good_hist e).1
  refine Bool.eq_false_iff.mpr fun h => ?_
  rcases (Ep.ifStrong_iff hg.fresh i).mp h with h | ⟨c, h⟩ | ⟨l, h⟩
  · rw [ho.1] at h; cases h
  · obtain ⟨h1, h2, h3, h4⟩ := hg.ended.conns c (ho.2.2 c)
    simp [Ep.Conn.holds, h1, h2, h3, h4, Map.empty] at h
  · have := hg.ended.liss l (ho.2.1 l)
    simp [Ep.Lis.holds, this, Map.empty] at h

/-- **C90.** Then `recv_from` of a stub that is not in a call and whose messages were all read reports
the end at once. -/
theorem C90_stub (e : Exec Node.step Node.init tr s) (hr : Resting s) (hm : Room s) (hg : AllGone tr)
    {k i : Nat} {id : InterfaceId} (hk : Shown (app tr) (.serving k i id))
    (hd : (.dropStub k, .none) ∉ app tr) (hq : StubRead k i (app tr)) :
    Node.step s (.app (.stubRecv k)) = some (s, ⟨some .closed, [], []⟩) := by
  obtain ⟨e1, -⟩ := Node.parts e
  obtain ⟨h1, h2, -⟩ := (Ep.made e1).stub k i id hk
  have h3 := (stub_open e1 h1).resolve_right hd
  have h4 := over_shut e1 (all_over e hr hm hg).1 i
  have h5 := (quiet e hr hm).stubIdle e1 k
  simp [Node.step, Ep.step, Ep.stubRecv, h2, h3, h4, h5, Ep.stub_read e1 hk h3 hq, Node.appCall, Node.still]

/-- **C90.** Then `recv` of a proxy whose messages were all read reports the end at once, and `send`
fails at once. -/
theorem C90_proxy (e : Exec Node.step Node.init tr s) (hr : Resting s) (hm : Room s) (hg : AllGone tr)
    {p i : Nat} {id : InterfaceId} {r : Addr} (hp : Shown (app tr) (.proxying p i id r))
    (hd : (.dropProxy p, .none) ∉ app tr) :
    (ProxyRead p i (app tr) →
      Node.step s (.app (.proxyRecv p)) = some (s, ⟨some .closed, [], []⟩)) ∧
    ∀ m, Node.step s (.app (.proxySend p m)) = some (s, ⟨some (.sendFailed .notConnected), [], []⟩) := by
  obtain ⟨e1, -⟩ := Node.parts e
  obtain ⟨h1, h2, -⟩ := (Ep.made e1).proxy p i id r hp
  have h3 := (proxy_open e1 h1).resolve_right hd
  obtain ⟨ho, -⟩ := all_over e hr hm hg
  have h4 := over_shut e1 ho i
  constructor
  · intro hq
    simp [Node.step, Ep.step, Ep.proxyRecv, h2, h3, h4, Ep.proxy_read e1 hp h3 hq, Node.appCall, Node.still]
  · intro m
    simp [Node.step, Ep.step, Ep.proxySend, h3, ho.2.2, Node.appCall, Node.still]

theorem Spec.Ep.Over.step {dg : Bool} {s s' : Ep.State} {x : Ep.Action} {o : Ep.Obs} (h : Over s)
    (g : Ep.Good s) (m : Ep.Move dg s x o s') : Over s' ∧ (∀ c a, o ≠ .opened c a) ∧
      (∀ c n, o ≠ .accepted c n) ∧ (∀ i n a, o ≠ .routed i n a) ∧ ∀ b ok, o ≠ .wire b ok := by
  obtain ⟨h1, h2, h3⟩ := h
  have h4 := fun c => (g.ended.conns c (h3 c))
  have h5 := fun l => (g.ended.liss l (h2 l))
  simp only [Over]
  cases m
  case proxyRecv => split <;> exact ⟨⟨h1, h2, h3⟩, by simp, by simp, by simp, by simp⟩
  all_goals first
    | exact ⟨⟨h1, h2, h3⟩, by simp, by simp, by simp, by simp⟩
    | grind

/-- **C90.** From then on, whatever is called and whatever happens, no connection is opened, no message
is accepted by `send` or `send_to`, none is put into a queue, and nothing is sent. -/
theorem C90_nothing (e : Exec Node.step Node.init tr s) (hr : Resting s) (hm : Room s) (hg : AllGone tr)
    {t : Spec.Node.Trace} {s' : Node.State} (e' : Exec Node.step s t s') :
    (∀ x o, (x, o) ∈ app t → (∀ c a, o ≠ .opened c a) ∧ (∀ c n, o ≠ .accepted c n) ∧
      (∀ i n a, o ≠ .routed i n a) ∧ ∀ b ok, o ≠ .wire b ok) ∧ out t = [] := by
  have ho := (all_over e hr hm hg).1
  suffices h : Over s'.ep ∧ (∀ x o, (x, o) ∈ app t → (∀ c a, o ≠ .opened c a) ∧
      (∀ c n, o ≠ .accepted c n) ∧ (∀ i n a, o ≠ .routed i n a) ∧ ∀ b ok, o ≠ .wire b ok) ∧
      out t = [] from h.2
  induction e' with
  | nil => exact ⟨ho, fun x o h => (nomatch h), rfl⟩
  | @snoc t s1 s2 a o e' hs ih =>
    obtain ⟨h1, h2, h3⟩ := ih
    have hg := (Ep.good_hist (Node.parts (e.append e')).1).1
    rw [Node.app_snoc, Node.out_snoc]
    cases Node.move_of_step hs with
    | net _ u v w ha =>
      refine ⟨h1, fun x o h => ?_, by rw [h3]; rfl⟩
      rcases List.mem_append.mp h with h | h
      · exact h2 x o h
      · exfalso
        cases a with
        | app y => exact ha y rfl
        | _ => cases h
    | app x e2 o2 _ us ou he hc =>
      obtain ⟨h4, h5⟩ := h1.step hg (Ep.move_of_step he)
      rw [hc.ep]
      refine ⟨h4, fun y o h => ?_, ?_⟩
      · rcases List.mem_append.mp h with h | h
        · exact h2 y o h
        · cases List.mem_singleton.mp h
          exact h5
      · rw [h3]
        have h6 := fun c => (hg.ended.conns c (h1.2.2 c)).2.1
        cases hc with
        | send c ok b _ hb => rw [h6 c] at hb; cases hb
        | sendEnd c ok b _ _ _ hb => rw [h6 c] at hb; cases hb
        | _ => rfl

/-! ### C91 -/

/-- **C91.** The socket never puts a datagram into the channel of a connection that has ended: when it
puts one from `a` into a channel, this is the channel of a running connection to `a`, or of one that an
open listener of the socket has not accepted yet. -/
theorem C91_running {o : Node.Obs} {s' : Node.State} {a : Addr} {p : Bytes} {d : Nat}
    (e : Exec Node.step Node.init tr s) (hs : Node.step s .task = some (s', o))
    (h : (.task, .routed a p d) ∈ o.udp) :
    (∃ c, Shown (app tr) (.opened c a) ∧ ¬ ConnOver c (app tr) ∧ s.chan c = d) ∨
      ∃ b, Spec.Udp.ListenerOpen b (socket tr) ∧ (d, a) ∈ Spec.Udp.pending b (socket tr) := by
  obtain ⟨e1, e2⟩ := Node.parts e
  obtain ⟨ht, -, -⟩ := Udp.exec_inv e2
  have hl := Node.link e
  obtain ⟨hrx, hp⟩ : (s.udp.chans d).rx = true ∧ (s.udp.chans d).peer = a := by
    generalize hx : Node.Action.task = x at hs
    cases Node.move_of_step hs with
    | app => cases hx
    | net _ u v w ha hn hdd hu =>
      cases List.mem_singleton.mp h
      have hpc := ht.pc a d
      cases Udp.move_of_step hu <;> grind [Udp.Pc.chan]
  cases hh : (s.udp.chans d).held with
  | true =>
    obtain ⟨c, h1, h2⟩ := Node.owned e d hh
    have h3 := hl.chan c h1
    rw [h2, hrx, hp] at h3
    refine .inl ⟨c, ?_, ((Ep.conn_open_iff e1 c).mp h3.2.2.2.symm).2, h2⟩
    rw [h3.2.2.1]
    exact (Ep.good_hist e1).2.conns c h1
  | false =>
    obtain ⟨l, h1⟩ := Udp.pending e2 d hrx hh
    rw [hp] at h1
    have h2 := Udp.queue_open e2 l (List.ne_nil_of_mem h1)
    rw [(Udp.queues e2).queue l h2] at h1
    exact .inr ⟨l, (Udp.listener_open_iff e2 l).mpr h2, h1⟩

end

/-- An interface is served, a proxy for 7 is made, and 8 sends two messages, of which the stub reads
one. The `Endpoint` is dropped while stub and proxy are kept, the socket fails, and all tasks end. -/
def Spec.Node.allGone : List Node.Action :=
  [.app (.serve ⟨1, 1⟩), .app (.ep true), .app (.ep true), .app (.ep true), .app (.ep true),
    .app (.ep true), .app (.lisCmd 0), .app (.proxy ⟨2, 1⟩ 7), .app (.ep true), .app (.ep true),
    .app (.ep true), .app (.ep true), .app (.ep true), .app (.ep true), .app (.connCmd 0),
    .datagram 8 (frame Ep.msgA), .task, .task, .task, .task, .app (.accept 0 8),
    .app (.lisShare 0), .app (.packet 1 (.packet (frame Ep.msgA))),
    .app (.route 1), .app (.route 1), .app (.route 1), .app (.stubRecv 0), .app .close,
    .app (.ep true), .failure, .app (.acceptNone 0), .app (.packet 0 .closed),
    .app (.packet 1 .closed)]

/-- The hypotheses of `C90_stub` and `C90_proxy` hold. -/
example : ∃ tr s, Exec Node.step Node.init tr s ∧ Resting s ∧ Room s ∧ AllGone tr ∧
    Shown (app tr) (.serving 0 0 ⟨1, 1⟩) ∧ (.dropStub 0, .none) ∉ app tr ∧
    StubRead 0 0 (app tr) ∧ Shown (app tr) (.proxying 0 1 ⟨2, 1⟩ 7) ∧
    (.dropProxy 0, .none) ∉ app tr ∧ ProxyRead 0 1 (app tr) := by
  obtain ⟨tr, s, e, h⟩ := exec_by (step := Node.step) (s := Node.init) Spec.Node.allGone (fun tr s =>
    (decide (s.udp.pc = .stopped ∧ s.ep.pc = .stopped)) &&
    (List.range s.ep.connCount).all (fun c => decide ((s.ep.conns c).pc = .wait ∧
      (s.ep.conns c).out = none ∧ (s.ep.conns c).alive = false)) &&
    (List.range s.ep.lisCount).all (fun l => decide ((s.ep.liss l).pc = .wait ∧
      (s.ep.liss l).alive = false)) &&
    (List.range s.ep.stubCount).all (fun k => decide ((s.ep.stubs k).pc = .idle ∧
      (s.ep.ifaces (s.ep.stubs k).iface).queue.length < 16)) &&
    (List.range s.ep.proxyCount).all (fun k => decide (
      (s.ep.ifaces (s.ep.proxies k).iface).queue.length < 16)) &&
    decide ((held (app tr) = false ∧ (.failure, .none) ∈ socket tr) ∧
      (.ep true, .serving 0 0 ⟨1, 1⟩) ∈ app tr ∧ (.dropStub 0, .none) ∉ app tr ∧
      stubGot 0 (app tr) = routedTo 0 (app tr) ∧ (.ep true, .proxying 0 1 ⟨2, 1⟩ 7) ∈ app tr ∧
      (.dropProxy 0, .none) ∉ app tr ∧ proxySaw 0 (app tr) = (routedTo 1 (app tr)).map Prod.fst))
    (by decide +kernel)
  simp only [Bool.and_eq_true, List.all_eq_true, List.mem_range, decide_eq_true_eq] at h
  obtain ⟨⟨⟨⟨⟨h1, h2⟩, h3⟩, h4⟩, h5⟩, h6, h7, h8, h9, h10, h11, h12⟩ := h
  have hg := (Ep.good_hist (Node.parts e).1).1
  refine ⟨tr, s, e, ?_, ⟨fun k hk => ?_, fun p hp => ?_⟩, h6, ⟨_, h7⟩, h8, h9, ⟨_, h10⟩, h11, h12⟩
  · refine (resting_iff s).mpr (Node.Idle.rests ⟨.inr h1.1, .inl h1.2, fun c hc => ?_, fun l hl => ?_,
      fun k hk => (h4 k hk).1⟩ hg)
    · exact ⟨(h2 c hc).1, (h2 c hc).2.1, fun h => by rw [(h2 c hc).2.2] at h; cases h⟩
    · exact ⟨(h3 l hl).1, fun h => by rw [(h3 l hl).2] at h; cases h⟩
  · exact (h4 k (Ep.stub_lt hg.fresh hk)).2
  · exact h5 p (Ep.proxy_lt hg.fresh hp)

/-- A proxy for 7 is dropped and its connection ends. Then 7 sends a message for an interface that is
served: it is put into the channel of a new connection. -/
example : ∃ tr s s' o, Exec Node.step Node.init tr s ∧ Node.step s .task = some (s', o) ∧
    (.task, .routed 7 (frame Ep.msgA) 1) ∈ o.udp ∧ s.chan 0 = 0 ∧ ConnOver 0 (app tr) ∧
    Shown (app tr) (.opened 0 7) ∧ Spec.Udp.ListenerOpen 0 (socket tr) ∧
    (1, 7) ∈ Spec.Udp.pending 0 (socket tr) := by
  obtain ⟨tr, s, e, h⟩ := exec_by (step := Node.step) (s := Node.init)
    [.app (.serve ⟨1, 1⟩), .app (.ep true), .app (.ep true), .app (.ep true), .app (.ep true),
    .app (.ep true), .app (.lisCmd 0), .app (.proxy ⟨2, 1⟩ 7), .app (.ep true), .app (.ep true),
    .app (.ep true), .app (.ep true), .app (.ep true), .app (.ep true), .app (.connCmd 0),
    .app (.dropProxy 0), .app (.connCmd 0), .datagram 7 (frame Ep.msgA), .task, .task, .task, .task]
    (fun tr s => decide (((Node.step s .task).map fun x => x.2.udp) =
        some [(.task, .routed 7 (frame Ep.msgA) 1)] ∧ s.chan 0 = 0 ∧ (.connCmd 0, .ended) ∈ app tr ∧
      (.ep true, .opened 0 7) ∈ app tr ∧ Spec.Udp.ListenerOpen 0 (socket tr) ∧
      (1, 7) ∈ Spec.Udp.pending 0 (socket tr))) (by decide +kernel)
  obtain ⟨h1, h2, h3, h4, h5⟩ := of_decide_eq_true h
  cases hs : Node.step s .task with
  | none => rw [hs] at h1; cases h1
  | some x =>
    refine ⟨tr, s, x.1, x.2, e, hs, ?_, h2, .inr (.inl h3), ⟨_, h4⟩, h5⟩
    rw [hs] at h1
    rw [Option.map_some, Option.some.injEq] at h1
    rw [h1]
    exact List.mem_singleton_self _

end Rsomeip
