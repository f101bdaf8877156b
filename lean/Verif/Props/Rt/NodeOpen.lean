import Verif.Lemmas.NodeOpen
import Verif.Props.Rt.UdpSole
import Verif.Props.Rt.Lifetime
import Verif.Props.Rt.Node
import Verif.Lemmas.Net

/-! # C84: how long handles work, on a UDP socket -/

namespace Rsomeip

open Rt Rt.Node Spec Spec.Node Someip

/-- The `Endpoint` was dropped and the operating system's socket has failed. -/
def Spec.Node.Gone (tr : Trace) : Prop :=
  (.close, .none) ∈ app tr ∧ (.failure, .none) ∈ socket tr

/-- What may cut a proxy off from its remote `r`: sending on a connection to `r` failed, the socket
made two connections to `r`, or the socket is gone. -/
def Spec.Node.Cut (tr : Trace) (r : Addr) : Prop :=
  (∃ c, Spec.Ep.Shown (app tr) (.opened c r) ∧ ∃ y, (.sent c false, y) ∈ app tr) ∨
    (∃ d d', d ≠ d' ∧ Udp.Made (socket tr) d r ∧ Udp.Made (socket tr) d' r) ∨ Gone tr

theorem mem_app {tr : Trace} {x : Ep.Action} {w : Ep.Obs} (h : (x, w) ∈ app tr) :
    ∃ o t u, tr = t ++ (.app x, o) :: u ∧ o.ep = some w := by
  simp only [app, List.mem_filterMap] at h
  obtain ⟨⟨a, o⟩, h1, h2⟩ := h
  cases a with
  | app y =>
    dsimp only at h2
    cases ho : o.ep with
    | none => rw [ho] at h2; cases h2
    | some v =>
      rw [ho] at h2
      cases h2
      obtain ⟨t, u, rfl⟩ := List.append_of_mem h1
      exact ⟨o, t, u, rfl, ho⟩
  | _ => cases h2

theorem app_append (t u : Trace) : app (t ++ u) = app t ++ app u := by
  simp only [app, List.filterMap_append]

theorem socket_append (t u : Trace) : socket (t ++ u) = socket t ++ socket u := by
  simp only [socket, List.flatMap_append]

theorem made_append {t : Spec.Udp.Trace} {d : Nat} {a : Addr} (h : Udp.Made t d a)
    (u : Spec.Udp.Trace) : Udp.Made (t ++ u) d a :=
  h.imp (List.mem_append_left _) fun ⟨p, h⟩ => ⟨p, List.mem_append_left _ h⟩

/-- The socket closes a connection only if there was another one to the same address or the socket is
gone. -/
theorem closed_cut {tr : Trace} {s : State} (e : Exec Node.step Node.init tr s) {c : Nat} {y : Ep.Obs}
    {r : Addr} (h : (.packet c .closed, y) ∈ app tr) (hr : Spec.Ep.Shown (app tr) (.opened c r)) :
    Cut tr r := by
  obtain ⟨o, t, u, rfl, ho⟩ := mem_app h
  obtain ⟨s2, e2, _⟩ := Exec.split (t := t ++ [(.app (.packet c .closed), o)]) (u := u)
    (by rw [List.append_assoc]; exact e)
  obtain ⟨s1, e1, hs⟩ := e2.last
  generalize hx : Node.Action.app (.packet c .closed) = x at hs
  cases move_of_step hs with
  | net _ _ _ _ ha => exact absurd hx.symm (ha _)
  | app x ep o s' us out he hc =>
    cases hx
    obtain ⟨v, w, h1, h2⟩ := hc.packet_inv
    have hw : w = .closed := by
      cases w <;> simp [received] at h1
      rfl
    subst hw
    have e4 := (parts e1).2
    rcases Udp.closed_why e4 h2 with h3 | ⟨d, h3, h4, h5⟩
    · obtain ⟨h4, h5⟩ := over e1 h3
      exact .inr (.inr ⟨by rw [app_append]; exact List.mem_append_left _ h4,
        by rw [socket_append]; exact List.mem_append_left _ h5⟩)
    · refine .inr (.inl ⟨d, s1.chan c, h3, ?_⟩)
      obtain ⟨hg, hh⟩ := Ep.good_hist (parts e1).1
      have hlt := conn_lt hg (Ep.move_of_step he) (c := c) rfl
      obtain ⟨k1, _, k2, _⟩ := (link e1).chan c hlt
      have hs' := hh.conns c hlt
      have : (s1.ep.conns c).addr = r := by
        refine opened_unique e ?_ hr
        obtain ⟨y, hs'⟩ := hs'
        exact ⟨y, by rw [app_append]; exact List.mem_append_left _ hs'⟩
      rw [this] at k2
      have m1 := Udp.chan_made e4 k1
      have m2 := Udp.chan_made e4 h4
      rw [h5, k2] at m2
      rw [k2] at m1
      rw [socket_append]
      exact ⟨made_append m2 _, made_append m1 _⟩

theorem proxy_cut {tr : Trace} {s : State} (e : Exec Node.step Node.init tr s) {p : Nat}
    (hp : (s.ep.proxies p).alive = true) :
    (s.ep.conns (s.ep.proxies p).conn).alive = true ∨ Cut tr (s.ep.proxies p).remote := by
  obtain ⟨e1, _⟩ := parts e
  obtain ⟨hg, hh⟩ := Ep.good_hist e1
  have h1 := ((Ep.fed e1).proxies p hp).1
  have h2 := hh.conns _ h1
  rw [((Ep.peers e1).proxies p (Ep.proxy_lt hg.fresh hp)).2] at h2
  apply Decidable.or_iff_not_imp_left.mpr
  intro hn
  have h3 : ∃ x ∈ app tr, x.1 = .packet (s.ep.proxies p).conn .closed ∨
      x.1 = .sent (s.ep.proxies p).conn false := by
    apply Decidable.byContradiction
    intro h
    exact hn (conn_lasts e1 (.inr (.inr (.inr ⟨p, hp, rfl⟩))) fun x hx =>
      ⟨fun hc => h ⟨x, hx, .inl hc⟩, fun hc => h ⟨x, hx, .inr hc⟩⟩)
  obtain ⟨⟨x, y⟩, h4, rfl | rfl⟩ := h3
  · exact closed_cut e h4 h2
  · exact .inl ⟨_, h2, y, h4⟩

/-- An interface is served, and a peer sends two messages. The `Endpoint` is dropped while the stub is
kept, the socket fails, the listener ends, and the messages are looked at only now. -/
def Spec.Node.stubGone : List Node.Action :=
  [.app (.serve ⟨1, 1⟩), .app (.ep true), .app (.ep true), .app (.ep true), .app (.ep true),
    .app (.ep true), .app (.lisCmd 0), .datagram 8 (frame Ep.msgA), .task, .task, .task, .task,
    .app (.accept 0 8), .app (.lisShare 0), .app .close, .app (.ep true), .failure,
    .app (.acceptNone 0), .app (.packet 0 (.packet (frame Ep.msgA))), .app (.route 0),
    .app (.route 0), .app (.stubRecv 0)]

/-- **C84.** On a UDP socket, a message for an interface with an open stub is dropped only if the
`Endpoint` was dropped and the operating system's socket has failed. -/
theorem C84_stub {tr : Trace} {s : State} {x : Node.Action} {o : Node.Obs} {m : Msg} {w : Ep.Drop}
    {k i : Nat} {id : InterfaceId} (e : Exec Node.step Node.init (tr ++ [(x, o)]) s)
    (ho : o.ep = some (.dropped m w)) (hk : Spec.Ep.Shown (app tr) (.serving k i id))
    (hf : Spec.Ep.For m id) (hd : (.dropStub k, .none) ∉ app tr) : Gone tr := by
  obtain ⟨s₁, e₁, hs⟩ := e.last
  obtain ⟨e2, _⟩ := parts e₁
  have hg := (Ep.good_hist e2).1
  obtain ⟨h1, h2, _, h3⟩ := (Ep.made e2).stub k i id hk
  have h4 := (stub_open e2 h1).resolve_right hd
  refine (stub_listens e₁ h4).resolve_left fun h5 => ?_
  have h6 := (Ep.fed e2).open_stub hg h4 h5
  rw [h2] at h6
  cases move_of_step hs with
  | net => cases ho
  | app x ep o s' us out he hc =>
    cases ho
    exact (Ep.move_of_step he).not_open hg i (h3.trans (For.of hf).symm) h6

/-- A message for an open stub that is dropped. -/
example : ∃ tr x o s, Exec Node.step Node.init (tr ++ [(x, o)]) s ∧
    o.ep = some (.dropped Ep.msgA .dead) ∧ Spec.Ep.Shown (app tr) (.serving 0 0 ⟨1, 1⟩) ∧
    Spec.Ep.For Ep.msgA ⟨1, 1⟩ ∧ (.dropStub 0, .none) ∉ app tr := by
  obtain ⟨tr, s, e, h⟩ := exec_by (step := Node.step) (s := Node.init) (stubGone.take 19)
    (fun tr s => decide (((Node.step s (.app (.route 0))).map fun x => x.2.ep) =
      some (some (.dropped Ep.msgA .dead)) ∧ (.ep true, .serving 0 0 ⟨1, 1⟩) ∈ app tr ∧
      (.dropStub 0, .none) ∉ app tr)) (by decide +kernel)
  obtain ⟨h1, h2, h3⟩ := of_decide_eq_true h
  obtain ⟨⟨s', o⟩, h4, h5⟩ := Option.map_eq_some_iff.mp h1
  exact ⟨tr, _, o, s', e.snoc h4, h5, ⟨_, h2⟩, ⟨by decide, by decide⟩, h3⟩

/-- **C84.** On a UDP socket, `Stub::recv_from` reports the end only if the `Endpoint` was dropped and
the operating system's socket has failed. -/
theorem C84_stub_closed {tr : Trace} {s : State} {o : Node.Obs} {k : Nat}
    (e : Exec Node.step Node.init (tr ++ [(.app (.stubRecv k), o)]) s)
    (ho : o.ep = some .closed) : Gone tr := by
  obtain ⟨s₁, e₁, hs⟩ := e.last
  obtain ⟨e2, _⟩ := parts e₁
  have hg := (Ep.good_hist e2).1
  generalize hx : Node.Action.app (.stubRecv k) = x at hs
  cases move_of_step hs with
  | net => cases ho
  | app x ep o s' us out he hc =>
    cases ho
    cases hx
    have hm := Ep.move_of_step he
    obtain ⟨ha, hn⟩ : (s₁.ep.stubs k).alive = true ∧
        s₁.ep.ifStrong (s₁.ep.stubs k).iface = false := by
      cases hm with
      | stubClosed _ ha _ _ hn => exact ⟨ha, hn⟩
    refine (stub_listens e₁ ha).resolve_left fun h5 => ?_
    have h6 := (Ep.fed e2).open_stub hg ha h5
    exact Ep.ifStrong_false hg.fresh hn h6.2

/-- A stub that reports the end. -/
example : ∃ tr o s, Exec Node.step Node.init (tr ++ [(.app (.stubRecv 0), o)]) s ∧
    o.ep = some .closed := by
  obtain ⟨tr, s, e, h⟩ := exec_by (step := Node.step) (s := Node.init) (stubGone.take 21)
    (fun _ s => decide (((Node.step s (.app (.stubRecv 0))).map fun x => x.2.ep) =
      some (some .closed))) (by decide +kernel)
  obtain ⟨⟨s', o⟩, h4, h5⟩ := Option.map_eq_some_iff.mp (of_decide_eq_true h)
  exact ⟨tr, o, s', e.snoc h4, h5⟩

/-- Two proxies for different interfaces at the same remote: a second connection to it is made, which
cuts the first one off. Then the remote sends a message for the first proxy. -/
def Spec.Node.twoProxies : List Node.Action :=
  [.app (.proxy ⟨2, 1⟩ 7), .app (.ep true), .app (.ep true), .app (.ep true), .app (.ep true),
    .app (.ep true), .app (.ep true), .app (.connCmd 0), .app (.proxy ⟨1, 1⟩ 7), .app (.ep true),
    .app (.ep true), .app (.ep true), .app (.ep true), .app (.ep true), .app (.ep true),
    .app (.connCmd 1), .app (.packet 0 .closed), .datagram 7 (frame Ep.msgB), .task, .task,
    .app (.packet 1 (.packet (frame Ep.msgB))), .app (.route 1), .app (.route 1),
    .app (.proxyRecv 0), .app (.proxySend 0 Ep.msgB)]

/-- **C84.** On a UDP socket, a message for an interface with an open proxy is dropped only if the
proxy may have been cut off: sending to its remote failed, the socket made a second connection to it,
or the socket is gone. -/
theorem C84_proxy {tr : Trace} {s : State} {x : Node.Action} {o : Node.Obs} {m : Msg} {w : Ep.Drop}
    {p i : Nat} {id : InterfaceId} {r : Addr} (e : Exec Node.step Node.init (tr ++ [(x, o)]) s)
    (ho : o.ep = some (.dropped m w)) (hp : Spec.Ep.Shown (app tr) (.proxying p i id r))
    (hf : Spec.Ep.For m id) (hd : (.dropProxy p, .none) ∉ app tr) : Cut tr r := by
  obtain ⟨s₁, e₁, hs⟩ := e.last
  obtain ⟨e2, _⟩ := parts e₁
  have hg := (Ep.good_hist e2).1
  obtain ⟨h1, h2, h3, _, h4⟩ := (Ep.made e2).proxy p i id r hp
  have h5 := (proxy_open e2 h1).resolve_right hd
  rw [← h3]
  refine (proxy_cut e₁ h5).resolve_left fun h6 => ?_
  have h7 := (Ep.fed e2).open_proxy hg h5 h6
  rw [h2] at h7
  cases move_of_step hs with
  | net => cases ho
  | app x ep o s' us out he hc =>
    cases ho
    exact (Ep.move_of_step he).not_open hg i (h4.trans (For.of hf).symm) h7

/-- **C84.** On a UDP socket, `Proxy::recv` reports the end, and `Proxy::send` fails, only if the proxy
may have been cut off. -/
theorem C84_proxy_closed {tr : Trace} {s : State} {x : Node.Action} {o : Node.Obs} {p i : Nat}
    {id : InterfaceId} {r : Addr} (e : Exec Node.step Node.init (tr ++ [(x, o)]) s)
    (hp : Spec.Ep.Shown (app tr) (.proxying p i id r))
    (h : x = .app (.proxyRecv p) ∧ o.ep = some .closed ∨
      ∃ m f, x = .app (.proxySend p m) ∧ o.ep = some (.sendFailed f)) : Cut tr r := by
  obtain ⟨s₁, e₁, hs⟩ := e.last
  obtain ⟨e2, _⟩ := parts e₁
  have hg := (Ep.good_hist e2).1
  obtain ⟨h1, h2, h3, _, h4⟩ := (Ep.made e2).proxy p i id r hp
  rw [← h3]
  cases move_of_step hs with
  | net _ _ _ _ ha =>
    rcases h with ⟨rfl, _⟩ | ⟨m, f, rfl, _⟩
    · exact absurd rfl (ha _)
    · exact absurd rfl (ha _)
  | app y ep o s' us out he hc =>
    have hm := Ep.move_of_step he
    rcases h with ⟨hx, ho⟩ | ⟨m, f, hx, ho⟩
    · cases hx
      cases ho
      generalize hy : Ep.Obs.closed = w at hm
      cases hm with
      | proxyRecv => split at hy <;> cases hy
      | proxyRecvClosed _ ha _ hn =>
        refine (proxy_cut e₁ ha).resolve_left fun h6 => ?_
        exact Ep.ifStrong_false hg.fresh hn ((Ep.fed e2).open_proxy hg ha h6).2
    · cases hx
      cases ho
      cases hm with
      | proxySendFail _ _ ha hn =>
        exact (proxy_cut e₁ ha).resolve_left (by simp [hn])

/-- A message for an open proxy that is dropped. -/
example : ∃ tr x o s, Exec Node.step Node.init (tr ++ [(x, o)]) s ∧
    o.ep = some (.dropped Ep.msgB .dead) ∧ Spec.Ep.Shown (app tr) (.proxying 0 0 ⟨2, 1⟩ 7) ∧
    Spec.Ep.For Ep.msgB ⟨2, 1⟩ ∧ (.dropProxy 0, .none) ∉ app tr := by
  obtain ⟨tr, s, e, h⟩ := exec_by (step := Node.step) (s := Node.init) (twoProxies.take 21)
    (fun tr s => decide (((Node.step s (.app (.route 1))).map fun x => x.2.ep) =
      some (some (.dropped Ep.msgB .dead)) ∧ (.ep true, .proxying 0 0 ⟨2, 1⟩ 7) ∈ app tr ∧
      (.dropProxy 0, .none) ∉ app tr)) (by decide +kernel)
  obtain ⟨h1, h2, h3⟩ := of_decide_eq_true h
  obtain ⟨⟨s', o⟩, h4, h5⟩ := Option.map_eq_some_iff.mp h1
  exact ⟨tr, _, o, s', e.snoc h4, h5, ⟨_, h2⟩, ⟨by decide, by decide⟩, h3⟩

/-- A proxy that reports the end, and then fails to send. -/
example : (∃ tr o s, Exec Node.step Node.init (tr ++ [(.app (.proxyRecv 0), o)]) s ∧
      Spec.Ep.Shown (app tr) (.proxying 0 0 ⟨2, 1⟩ 7) ∧ o.ep = some .closed) ∧
    ∃ tr o s, Exec Node.step Node.init (tr ++ [(.app (.proxySend 0 Ep.msgB), o)]) s ∧
      Spec.Ep.Shown (app tr) (.proxying 0 0 ⟨2, 1⟩ 7) ∧ o.ep = some (.sendFailed .notConnected) := by
  constructor
  · obtain ⟨tr, s, e, h⟩ := exec_by (step := Node.step) (s := Node.init) (twoProxies.take 23)
      (fun tr s => decide (((Node.step s (.app (.proxyRecv 0))).map fun x => x.2.ep) =
        some (some .closed) ∧ (.ep true, .proxying 0 0 ⟨2, 1⟩ 7) ∈ app tr)) (by decide +kernel)
    obtain ⟨h1, h2⟩ := of_decide_eq_true h
    obtain ⟨⟨s', o⟩, h4, h5⟩ := Option.map_eq_some_iff.mp h1
    exact ⟨tr, o, s', e.snoc h4, ⟨_, h2⟩, h5⟩
  · obtain ⟨tr, s, e, h⟩ := exec_by (step := Node.step) (s := Node.init) (twoProxies.take 24)
      (fun tr s => decide (((Node.step s (.app (.proxySend 0 Ep.msgB))).map fun x => x.2.ep) =
        some (some (.sendFailed .notConnected)) ∧ (.ep true, .proxying 0 0 ⟨2, 1⟩ 7) ∈ app tr))
      (by decide +kernel)
    obtain ⟨h1, h2⟩ := of_decide_eq_true h
    obtain ⟨⟨s', o⟩, h4, h5⟩ := Option.map_eq_some_iff.mp h1
    exact ⟨tr, o, s', e.snoc h4, ⟨_, h2⟩, h5⟩

end Rsomeip
