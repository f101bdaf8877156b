import Verif.Lemmas.TcpOpen
import Verif.Props.Rt.Lifetime
import Verif.Lemmas.Net

/-! # C92, C93: how long handles work, on a TCP socket -/

namespace Rsomeip

open Rt Rt.TcpNode Spec Spec.TcpNode Someip
open Spec.Ep (Shown For)

/-- The operating system has reported an error when reading from or writing to the stream of
connection `c`. -/
def Spec.TcpNode.Broke (c : Nat) (tr : Trace) : Prop :=
  (∃ x ∈ tr, x.1 = .read c .broken ∨ x.1 = .read c .failed) ∨
    ∃ x ∈ tr, x.1 = .write c .broken ∨ x.1 = .write c .failed

theorem ends_broke {tr : Trace} {s : State} (e : Exec TcpNode.step TcpNode.init tr s) {c : Nat}
    {x : Ep.Action × Ep.Obs} (h : x ∈ app tr) (hx : x.1 = .packet c .closed ∨ x.1 = .sent c false) :
    Broke c tr := by
  induction e with
  | nil => cases h
  | @snoc tr s s' a w e hs ih =>
    rw [app_snoc, List.mem_append] at h
    have hl : (a, w) ∈ tr ++ [(a, w)] := List.mem_append_right _ (List.mem_singleton_self _)
    rcases h with h | h
    · rcases ih h with ⟨y, h1, h2⟩ | ⟨y, h1, h2⟩
      · exact .inl ⟨y, List.mem_append_left _ h1, h2⟩
      · exact .inr ⟨y, List.mem_append_left _ h1, h2⟩
    · have hw : w.ep = some x := by simpa [eq_comm] using h
      obtain ⟨x1, x2⟩ := x
      rcases hx with rfl | rfl
      · obtain ⟨r, rfl, rfl | rfl⟩ := (move_of_step hs).to_closed hw
        · exact .inl ⟨_, hl, .inl rfl⟩
        · exact .inl ⟨_, hl, .inr rfl⟩
      · obtain ⟨r, rfl, rfl | rfl⟩ := (move_of_step hs).to_sent hw
        · exact .inr ⟨_, hl, .inl rfl⟩
        · exact .inr ⟨_, hl, .inr rfl⟩

/-- The connection of an open proxy lasts until the operating system reports an error on it. -/
theorem proxy_broke {tr : Trace} {s : State} (e : Exec TcpNode.step TcpNode.init tr s) {p : Nat}
    (hp : (s.ep.proxies p).alive = true) :
    (s.ep.conns (s.ep.proxies p).conn).alive = true ∨ Broke (s.ep.proxies p).conn tr := by
  apply Decidable.or_iff_not_imp_left.mpr
  intro hn
  have h3 : ∃ x ∈ app tr, x.1 = .packet (s.ep.proxies p).conn .closed ∨
      x.1 = .sent (s.ep.proxies p).conn false := by
    apply Decidable.byContradiction
    intro h
    exact hn (conn_lasts (part e) (.inr (.inr (.inr ⟨p, hp, rfl⟩))) fun x hx =>
      ⟨fun hc => h ⟨x, hx, .inl hc⟩, fun hc => h ⟨x, hx, .inr hc⟩⟩)
  obtain ⟨x, h1, h2⟩ := h3
  exact ends_broke e h1 h2

/-- Every step of the endpoint is seen in the node's history. -/
theorem tcp_step {s s' : State} {x : TcpNode.Action} {w : TcpNode.Obs} {y : Ep.Action} {o : Ep.Obs}
    (hs : TcpNode.step s x = some (s', w)) (h : w.ep = some (y, o)) :
    Ep.Move false s.ep y o s'.ep := by
  cases move_of_step hs <;> first | (cases h; done) | (cases h; exact Ep.move_of_step ‹_›)

/-! ### C92: handles work until their own connection or listener fails -/

/-- An interface is served, a peer connects, and accepting the next connection fails. Then a message
of the connected peer arrives. -/
def Spec.TcpNode.acceptFails : List TcpNode.Action :=
  [.app (.serve ⟨1, 1⟩), .app (.ep true), .app (.ep true), .app (.ep true), .app (.ep true),
    .app (.ep true), .app (.lisCmd 0), .app (.accept 0 8), .app (.lisShare 0),
    .app (.acceptNone 0), .arrive 0 (frame Ep.msgA), .read 0 (.read 100), .app (.route 0)]

/-- **C92.** On a TCP socket, a message for an interface with an open stub is dropped only if accepting
a connection has failed on the listener of that stub. -/
theorem C92_stub {tr : Trace} {s : State} {x : TcpNode.Action} {o : TcpNode.Obs} {y : Ep.Action}
    {m : Msg} {w : Ep.Drop} {k i : Nat} {id : InterfaceId}
    (e : Exec TcpNode.step TcpNode.init (tr ++ [(x, o)]) s) (ho : o.ep = some (y, .dropped m w))
    (hk : Shown (app tr) (.serving k i id)) (hf : For m id) (hd : (.dropStub k, .none) ∉ app tr) :
    (.acceptNone (s.ep.stubs k).lis, .ended) ∈ app tr := by
  obtain ⟨s₁, e₁, hs⟩ := e.last
  have e2 := part e₁
  have hg := (Ep.good_hist e2).1
  obtain ⟨h1, h2, _, h3⟩ := (Ep.made e2).stub k i id hk
  have h4 := (stub_open e2 h1).resolve_right hd
  have hm := tcp_step hs ho
  rw [(hm.stub_keep h1).2.2]
  refine (lis_lasts e2 h4).resolve_left fun h5 => ?_
  have h6 := (Ep.fed e2).open_stub hg h4 h5
  rw [h2] at h6
  exact hm.not_open hg i (h3.trans (For.of hf).symm) h6

/-- A message for an open stub that is dropped. -/
example : ∃ tr x o s, Exec TcpNode.step TcpNode.init (tr ++ [(x, o)]) s ∧
    o.ep = some (.route 0, .dropped Ep.msgA .dead) ∧ Shown (app tr) (.serving 0 0 ⟨1, 1⟩) ∧
    For Ep.msgA ⟨1, 1⟩ ∧ (.dropStub 0, .none) ∉ app tr := by
  obtain ⟨tr, s, e, h⟩ := exec_by (step := TcpNode.step) (s := TcpNode.init) (acceptFails.take 12)
    (fun tr s => decide (((TcpNode.step s (.app (.route 0))).map fun x => x.2.ep) =
      some (some (.route 0, .dropped Ep.msgA .dead)) ∧ (.ep true, .serving 0 0 ⟨1, 1⟩) ∈ app tr ∧
      (.dropStub 0, .none) ∉ app tr)) (by decide +kernel)
  obtain ⟨h1, h2, h3⟩ := of_decide_eq_true h
  obtain ⟨⟨s', o⟩, h4, h5⟩ := Option.map_eq_some_iff.mp h1
  exact ⟨tr, _, o, s', e.snoc h4, h5, ⟨_, h2⟩, ⟨by decide, by decide⟩, h3⟩

/-- **C92.** On a TCP socket, `Stub::recv_from` reports the end only if accepting a connection has
failed on the listener of that stub. -/
theorem C92_stub_closed {tr : Trace} {s : State} {o : TcpNode.Obs} {k : Nat}
    (e : Exec TcpNode.step TcpNode.init (tr ++ [(.app (.stubRecv k), o)]) s)
    (ho : o.ep = some (.stubRecv k, .closed)) :
    (.acceptNone (s.ep.stubs k).lis, .ended) ∈ app tr := by
  obtain ⟨s₁, e₁, hs⟩ := e.last
  have e2 := part e₁
  have hg := (Ep.good_hist e2).1
  have hm := tcp_step hs ho
  obtain ⟨ha, hn⟩ : (s₁.ep.stubs k).alive = true ∧
      s₁.ep.ifStrong (s₁.ep.stubs k).iface = false := by
    generalize s.ep = z at hm
    cases hm with
    | stubClosed _ ha _ _ hn => exact ⟨ha, hn⟩
  rw [(hm.stub_keep (Ep.stub_lt hg.fresh ha)).2.2]
  refine (lis_lasts e2 ha).resolve_left fun h5 => ?_
  exact Ep.ifStrong_false hg.fresh hn ((Ep.fed e2).open_stub hg ha h5).2

/-- A stub that reports the end. -/
example : ∃ tr o s, Exec TcpNode.step TcpNode.init (tr ++ [(.app (.stubRecv 0), o)]) s ∧
    o.ep = some (.stubRecv 0, .closed) := by
  obtain ⟨tr, s, e, h⟩ := exec_by (step := TcpNode.step) (s := TcpNode.init) acceptFails
    (fun _ s => decide (((TcpNode.step s (.app (.stubRecv 0))).map fun x => x.2.ep) =
      some (some (.stubRecv 0, .closed)))) (by decide +kernel)
  obtain ⟨⟨s', o⟩, h4, h5⟩ := Option.map_eq_some_iff.mp (of_decide_eq_true h)
  exact ⟨tr, o, s', e.snoc h4, h5⟩

/-- Two proxies for the same remote. The stream of the first one breaks, and a message for it arrives
on the stream of the second one. -/
def Spec.TcpNode.twoStreams : List TcpNode.Action :=
  [.app (.proxy ⟨2, 1⟩ 7), .app (.ep true), .app (.ep true), .app (.ep true), .app (.ep true),
    .app (.ep true), .app (.ep true), .app (.connCmd 0), .app (.proxy ⟨1, 1⟩ 7), .app (.ep true),
    .app (.ep true), .app (.ep true), .app (.ep true), .app (.ep true), .app (.ep true),
    .app (.connCmd 1), .read 0 .broken, .arrive 1 (frame Ep.msgB), .read 1 (.read 100),
    .app (.route 1), .app (.route 1), .app (.proxyRecv 0), .app (.proxySend 0 Ep.msgB)]

/-- **C92.** On a TCP socket, a message for an interface with an open proxy is dropped only if the
operating system has reported an error on the proxy's own connection, which was opened to its remote:
other connections do not matter, even if they are to the same remote. -/
theorem C92_proxy {tr : Trace} {s : State} {x : TcpNode.Action} {o : TcpNode.Obs} {y : Ep.Action}
    {m : Msg} {w : Ep.Drop} {p i : Nat} {id : InterfaceId} {r : Addr}
    (e : Exec TcpNode.step TcpNode.init (tr ++ [(x, o)]) s) (ho : o.ep = some (y, .dropped m w))
    (hp : Shown (app tr) (.proxying p i id r)) (hf : For m id)
    (hd : (.dropProxy p, .none) ∉ app tr) :
    Shown (app tr) (.opened (s.ep.proxies p).conn r) ∧ Broke (s.ep.proxies p).conn tr := by
  obtain ⟨s₁, e₁, hs⟩ := e.last
  have e2 := part e₁
  obtain ⟨hg, hh⟩ := Ep.good_hist e2
  obtain ⟨h1, h2, h3, _, h4⟩ := (Ep.made e2).proxy p i id r hp
  have h5 := (proxy_open e2 h1).resolve_right hd
  have hm := tcp_step hs ho
  rw [(hm.proxy_keep h1).2.2]
  constructor
  · have := hh.conns _ ((Ep.fed e2).proxies p h5).1
    rwa [((Ep.peers e2).proxies p h1).2, h3] at this
  · refine (proxy_broke e₁ h5).resolve_left fun h6 => ?_
    have h7 := (Ep.fed e2).open_proxy hg h5 h6
    rw [h2] at h7
    exact hm.not_open hg i (h4.trans (For.of hf).symm) h7

/-- **C92.** On a TCP socket, `Proxy::recv` reports the end, and `Proxy::send` fails, only if the
operating system has reported an error on the proxy's own connection. -/
theorem C92_proxy_closed {tr : Trace} {s : State} {x : TcpNode.Action} {o : TcpNode.Obs} {p : Nat}
    (e : Exec TcpNode.step TcpNode.init (tr ++ [(x, o)]) s)
    (h : o.ep = some (.proxyRecv p, .closed) ∨
      ∃ m f, o.ep = some (.proxySend p m, .sendFailed f)) : Broke (s.ep.proxies p).conn tr := by
  obtain ⟨s₁, e₁, hs⟩ := e.last
  have e2 := part e₁
  have hg := (Ep.good_hist e2).1
  rcases h with ho | ⟨m, f, ho⟩
  · have hm := tcp_step hs ho
    obtain ⟨ha, hn⟩ : (s₁.ep.proxies p).alive = true ∧
        s₁.ep.ifStrong (s₁.ep.proxies p).iface = false := by
      generalize s.ep = z at hm
      generalize hy : Ep.Obs.closed = w at hm
      cases hm with
      | proxyRecv => split at hy <;> cases hy
      | proxyRecvClosed _ ha _ hn => exact ⟨ha, hn⟩
    rw [(hm.proxy_keep (Ep.proxy_lt hg.fresh ha)).2.2]
    refine (proxy_broke e₁ ha).resolve_left fun h6 => ?_
    exact Ep.ifStrong_false hg.fresh hn ((Ep.fed e2).open_proxy hg ha h6).2
  · have hm := tcp_step hs ho
    obtain ⟨ha, hn⟩ : (s₁.ep.proxies p).alive = true ∧
        (s₁.ep.conns (s₁.ep.proxies p).conn).alive = false := by
      generalize s.ep = z at hm
      cases hm with
      | proxySendFail _ _ ha hn => exact ⟨ha, hn⟩
    rw [(hm.proxy_keep (Ep.proxy_lt hg.fresh ha)).2.2]
    exact (proxy_broke e₁ ha).resolve_left (by simp [hn])

/-- A message for an open proxy that is dropped. -/
example : ∃ tr x o s, Exec TcpNode.step TcpNode.init (tr ++ [(x, o)]) s ∧
    o.ep = some (.route 1, .dropped Ep.msgB .dead) ∧ Shown (app tr) (.proxying 0 0 ⟨2, 1⟩ 7) ∧
    For Ep.msgB ⟨2, 1⟩ ∧ (.dropProxy 0, .none) ∉ app tr := by
  obtain ⟨tr, s, e, h⟩ := exec_by (step := TcpNode.step) (s := TcpNode.init) (twoStreams.take 19)
    (fun tr s => decide (((TcpNode.step s (.app (.route 1))).map fun x => x.2.ep) =
      some (some (.route 1, .dropped Ep.msgB .dead)) ∧
      (.ep true, .proxying 0 0 ⟨2, 1⟩ 7) ∈ app tr ∧ (.dropProxy 0, .none) ∉ app tr))
    (by decide +kernel)
  obtain ⟨h1, h2, h3⟩ := of_decide_eq_true h
  obtain ⟨⟨s', o⟩, h4, h5⟩ := Option.map_eq_some_iff.mp h1
  exact ⟨tr, _, o, s', e.snoc h4, h5, ⟨_, h2⟩, ⟨by decide, by decide⟩, h3⟩

/-- A proxy that reports the end, and then fails to send, while the other one can send. -/
example : (∃ tr x o s, Exec TcpNode.step TcpNode.init (tr ++ [(x, o)]) s ∧
      o.ep = some (.proxyRecv 0, .closed)) ∧
    (∃ tr x o s, Exec TcpNode.step TcpNode.init (tr ++ [(x, o)]) s ∧
      o.ep = some (.proxySend 0 Ep.msgB, .sendFailed .notConnected)) ∧
    ∃ tr x o s, Exec TcpNode.step TcpNode.init (tr ++ [(x, o)]) s ∧
      o.ep = some (.proxySend 1 Ep.msgA, .accepted 1 Ep.msgA) := by
  refine ⟨?_, ?_, ?_⟩
  · obtain ⟨tr, s, e, h⟩ := exec_by (step := TcpNode.step) (s := TcpNode.init) (twoStreams.take 21)
      (fun _ s => decide (((TcpNode.step s (.app (.proxyRecv 0))).map fun x => x.2.ep) =
        some (some (.proxyRecv 0, .closed)))) (by decide +kernel)
    obtain ⟨⟨s', o⟩, h4, h5⟩ := Option.map_eq_some_iff.mp (of_decide_eq_true h)
    exact ⟨tr, _, o, s', e.snoc h4, h5⟩
  · obtain ⟨tr, s, e, h⟩ := exec_by (step := TcpNode.step) (s := TcpNode.init) (twoStreams.take 22)
      (fun _ s => decide (((TcpNode.step s (.app (.proxySend 0 Ep.msgB))).map fun x => x.2.ep) =
        some (some (.proxySend 0 Ep.msgB, .sendFailed .notConnected)))) (by decide +kernel)
    obtain ⟨⟨s', o⟩, h4, h5⟩ := Option.map_eq_some_iff.mp (of_decide_eq_true h)
    exact ⟨tr, _, o, s', e.snoc h4, h5⟩
  · obtain ⟨tr, s, e, h⟩ := exec_by (step := TcpNode.step) (s := TcpNode.init) (twoStreams.take 22)
      (fun _ s => decide (((TcpNode.step s (.app (.proxySend 1 Ep.msgA))).map fun x => x.2.ep) =
        some (some (.proxySend 1 Ep.msgA, .accepted 1 Ep.msgA)))) (by decide +kernel)
    obtain ⟨⟨s', o⟩, h4, h5⟩ := Option.map_eq_some_iff.mp (of_decide_eq_true h)
    exact ⟨tr, _, o, s', e.snoc h4, h5⟩

/-! ### C93: a server survives a failed accept -/

/-- **C93** is violated: when accepting a connection has failed while stub `k` is open, then as long as
it stays open, whatever happens: no connection is accepted on its listener, nothing can be served,
nothing is put into its channel, even what arrives on connections that were accepted before, and
`recv_from` gives what is queued and then reports the end. The exception is a message that was being
put into the full channel at that moment. -/
theorem C93_false {tr t : Trace} {s₁ s : State} {k i l : Nat} {id : InterfaceId} {o : TcpNode.Obs}
    (e : Exec TcpNode.step TcpNode.init (tr ++ [(.app (.acceptNone l), o)]) s₁)
    (e' : Exec TcpNode.step s₁ t s)
    (hk : Shown (app tr) (.serving k i id)) (hl : (s₁.ep.stubs k).lis = l)
    (hd : (.dropStub k, .none) ∉ app (tr ++ t))
    (hq : ∀ c m ms, (s₁.ep.conns c).pc ≠ .sending i m ms) :
    (∀ x ∈ app t, (∀ r, x.1 ≠ .accept l r) ∧ (∀ k' i' id', x.2 ≠ .serving k' i' id') ∧
      ∀ m r, x.2 ≠ .routed i m r) ∧
    (Spec.Ep.inCall k (app (tr ++ [(.app (.acceptNone l), o)] ++ t)) = false →
      Spec.Ep.StubRead k i (app (tr ++ [(.app (.acceptNone l), o)] ++ t)) →
      TcpNode.step s (.app (.stubRecv k)) = some (s, ⟨some (.stubRecv k, .closed), none⟩)) := by
  obtain ⟨s₀, e₀, hs⟩ := e.last
  have p₀ := part e₀
  have p₁ := part e
  have p₂ := part_from e'
  rw [app_append, List.mem_append, not_or] at hd
  obtain ⟨h1, h2, h3, h4⟩ := (Ep.made p₀).stub k i id hk
  have ha := (stub_open p₀ h1).resolve_right hd.1
  have hg := (Ep.good_hist p₀).1
  have hg1 := (Ep.good_hist p₁).1
  obtain ⟨w, hw⟩ : ∃ w, o.ep = some (.acceptNone l, w) := by
    generalize hx : TcpNode.Action.app (.acceptNone l) = x at hs
    cases move_of_step hs with
    | app => cases hx; exact ⟨_, rfl⟩
    | _ => cases hx
  have hm := tcp_step hs hw
  have hi1 : (s₁.ep.stubs k).iface = i := (hm.stub_keep h1).2.1.trans h2
  have hic : i < s₁.ep.ifCount := (hm.id h3).1
  have hdeaf : Ep.Deaf k l s₁.ep := by
    refine ⟨(hm.stub_drop ha).resolve_right (by simp), hl, ?_, ?_⟩
    · have := ((Ep.fed p₁).stubs k ((hm.stub_drop ha).resolve_right (by simp))).1
      rwa [hl] at this
    · generalize s₁.ep = z at hm ⊢
      cases hm with
      | acceptNone => simp [upd_same, Ep.deadLis]
  have hun := Ep.deaf_held p₁ hdeaf hi1 hq
  obtain ⟨h5, h6⟩ := Ep.unheld_exec hg1 hic hun p₂
  refine ⟨fun x hx => ?_, fun hpc hqe => ?_⟩
  · obtain ⟨u, v, hv⟩ := List.append_of_mem hx
    rw [hv] at p₂ hd
    obtain ⟨s₂, q₁, q₂⟩ := Exec.split (t := u ++ [x]) (u := v)
      (by rw [List.append_assoc]; exact p₂)
    obtain ⟨s₃, q₃, hs₃⟩ := q₁.last
    have hd3 := hdeaf.exec p₁ q₃ fun h => hd.2 (List.mem_append_left _ h)
    have m := Ep.move_of_step hs₃
    refine ⟨m.no_accept hd3.dead, m.no_serving (Ep.slot (p₁.append q₃)) hd3.dead ?_, h6 x hx⟩
    rw [(Ep.slot (p₁.append q₃)).stubs k hd3.stub, hd3.lis]
  · have hd3 := hdeaf.exec p₁ p₂ hd.2
    have h7 : (s.ep.stubs k).iface = i :=
      (Ep.stubs_exec (Ep.stub_lt hg1.fresh hdeaf.stub) p₂).2.trans hi1
    have h8 : s.ep.ifStrong i = false := by
      rw [Bool.eq_false_iff]
      exact fun h => h5 ((Ep.ifStrong_iff (hg1.exec p₂).fresh i).mp h)
    have p := part (e.append e')
    have hsh : Shown (app (tr ++ [(TcpNode.Action.app (.acceptNone l), o)] ++ t)) (.serving k i id) := by
      obtain ⟨x, hx⟩ := hk
      rw [app_append, app_append]
      exact ⟨x, List.mem_append_left _ (List.mem_append_left _ hx)⟩
    simp [TcpNode.step, does, Ep.step, Ep.stubRecv, hd3.stub, (Ep.idle_iff p k).mpr hpc, h7,
      Ep.stub_read p hsh hd3.stub hqe, h8]

/-- Accepting a connection fails, and then the user asks to serve another interface. -/
def Spec.TcpNode.serveAfter : List TcpNode.Action :=
  [.app (.serve ⟨2, 1⟩), .app (.ep true), .app (.ep true), .app (.ep true), .app (.ep true),
    .app (.ep true)]

/-- The hypotheses can be met; the request to serve fails, and the message is dropped. -/
example : ∃ tr t s₁ s o, Exec TcpNode.step TcpNode.init (tr ++ [(.app (.acceptNone 0), o)]) s₁ ∧
    Exec TcpNode.step s₁ t s ∧ Shown (app tr) (.serving 0 0 ⟨1, 1⟩) ∧ (s₁.ep.stubs 0).lis = 0 ∧
    (.dropStub 0, .none) ∉ app (tr ++ t) ∧ (∀ c m ms, (s₁.ep.conns c).pc ≠ .sending 0 m ms) ∧
    (.ep true, .serveFailed ⟨2, 1⟩ .io) ∈ app t ∧ (.route 0, .dropped Ep.msgA .dead) ∈ app t := by
  obtain ⟨tr, s, e, h⟩ := exec_by (step := TcpNode.step) (s := TcpNode.init) (acceptFails.take 9)
    (fun tr s => match TcpNode.step s (.app (.acceptNone 0)) with
      | some (s₁, _) => (match perform TcpNode.step s₁ (acceptFails.drop 10 ++ serveAfter) with
        | some (t, _) => decide ((.ep true, .serving 0 0 ⟨1, 1⟩) ∈ app tr ∧
          (s₁.ep.stubs 0).lis = 0 ∧ (.dropStub 0, .none) ∉ app (tr ++ t) ∧
          s₁.ep.connCount = 1 ∧ (s₁.ep.conns 0).pc = .wait ∧
          (.ep true, .serveFailed ⟨2, 1⟩ .io) ∈ app t ∧
          (.route 0, .dropped Ep.msgA .dead) ∈ app t)
        | none => false)
      | none => false) (by decide +kernel)
  split at h
  · rename_i s₁ o hs
    split at h
    · rename_i t s₂ hp
      obtain ⟨h1, h2, h3, h4, h5, h6, h7⟩ := of_decide_eq_true h
      refine ⟨tr, t, s₁, s₂, o, e.snoc hs, exec_of_perform hp, ⟨_, h1⟩, h2, h3, fun c m ms hc => ?_,
        h6, h7⟩
      have := (Ep.good_hist (part (e.snoc hs))).1.fresh.conns c
      rcases Nat.lt_or_ge c s₁.ep.connCount with hlt | hge
      · have : c = 0 := by omega
        subst this
        rw [h5] at hc
        cases hc
      · rw [this hge] at hc
        cases hc
    · cases h
  · cases h

/-- **C93.** A failed accept can happen whenever the listener waits for a connection, and it is all it
takes. -/
theorem C93_possible {s : State} {l : Nat} (ha : (s.ep.liss l).alive = true)
    (hw : (s.ep.liss l).pc = .wait) :
    ∃ s' o, TcpNode.step s (.app (.acceptNone l)) = some (s', o) ∧ (s'.ep.liss l).alive = false := by
  refine ⟨_, _, by simp only [TcpNode.step, does, Ep.step, ha, hw, and_self, if_true]; rfl, ?_⟩
  simp [upd_same, Ep.deadLis]

example : ∃ tr s, Exec TcpNode.step TcpNode.init tr s ∧ (s.ep.liss 0).alive = true ∧
    (s.ep.liss 0).pc = .wait := by
  obtain ⟨tr, s, e, h⟩ := exec_by (step := TcpNode.step) (s := TcpNode.init) (acceptFails.take 9)
    (fun _ s => decide ((s.ep.liss 0).alive = true ∧ (s.ep.liss 0).pc = .wait)) (by decide +kernel)
  exact ⟨tr, s, e, of_decide_eq_true h⟩

/-- **C93**, what holds: once all stubs are dropped, the next request to serve asks the operating system
for a new listener, and does not use the old one. Missing: that it works again without dropping the
stubs. -/
theorem C93_recovers_partial {tr : Trace} {s : State} {id : InterfaceId}
    (e : Exec TcpNode.step TcpNode.init tr s) (hpc : s.ep.pc = .serveListen id)
    (hk : ∀ k, (s.ep.stubs k).alive = false) :
    ∃ s' l, TcpNode.step s (.app (.ep true)) = some (s', ⟨some (.ep true, .none), none⟩) ∧
      s'.ep.pc = .serveShare id l ∧ (s'.ep.liss l).alive = true ∧ s.ep.listener ≠ some l := by
  have p := part e
  have hf := (Ep.good_hist p).1.fresh
  have h1 : ∀ l, s.ep.listener = some l → s.ep.lisStrong l = false := by
    intro l _
    rw [Bool.eq_false_iff]
    intro h
    rcases (Ep.lisStrong_iff hf l).mp h with h | ⟨k, h, _⟩
    · rw [hpc] at h; simp [Ep.EpPc.holdsLis] at h
    · rw [hk k] at h; cases h
  have h2 := Ep.step_of_move (.serveNew (dg := false) id hpc h1)
  refine ⟨_, s.ep.lisCount, by simp only [TcpNode.step, does, h2]; rfl, rfl, ?_, ?_⟩
  · simp [upd_same, Ep.newLis]
  · exact fun h => Nat.lt_irrefl _ (Ep.listener_lt p h)

end Rsomeip
