import Verif.Props.Rt.Told
import Verif.Props.Rt.Closed

/-! # C147: when a TCP connection is gone, the proxy that uses it is told -/

namespace Rsomeip

open Rt Spec Spec.TcpNode
open Spec.Ep (ConnOver Shown ProxyOver inCall)
open Someip (InterfaceId)

/-- The operating system has reported an error on the connection of proxy `p`: on one for which `send` took a
message, or on all that there ever were with the proxy's remote `a`. -/
def Spec.TcpNode.ProxyBroke (p : Nat) (a : Addr) (tr : Trace) : Prop :=
  (∃ m c, (.proxySend p m, .accepted c m) ∈ app tr ∧ Broke c tr) ∨
  ∀ c, Shown (app tr) (.opened c a) → Broke c tr

section
variable {tr : Trace} {s : Rt.TcpNode.State} {p i : Nat} {id : InterfaceId} {a : Addr}

theorem proxy_broke_over (e : Exec TcpNode.step TcpNode.init tr s) (h : ProxyBroke p a tr) :
    ProxyOver p a (app tr) := by
  rcases h with ⟨m, c, h1, h2⟩ | h
  · exact .inr (.inl ⟨m, c, h1, C130_error_partial e h2⟩)
  · exact .inr (.inr fun c hc => C130_error_partial e (h c hc))

/-- **C147**, the part that holds: once the operating system has reported an error on its connection,
`Proxy::send` does not wait: it fails at once, and reports that it is not connected. (Missing: the same when
the remote has closed the connection, `C147_false`.) -/
theorem C147_send_partial (e : Exec TcpNode.step TcpNode.init tr s)
    (hp : Shown (app tr) (.proxying p i id a)) (hd : (.dropProxy p, .none) ∉ app tr)
    (h : ProxyBroke p a tr) (m : Msg) :
    TcpNode.step s (.app (.proxySend p m)) =
      some (s, ⟨some (.proxySend p m, .sendFailed .notConnected), none⟩) := by
  have := C141_send (Rt.TcpNode.part e) hp hd (proxy_broke_over e h) m
  simp [TcpNode.step, TcpNode.does, this]

/-- **C147**, the part that holds: if the operating system has reported an error on the connection of a proxy
and its user goes on reading, then in the long run `recv` reports the end, unless the proxy is dropped.
(Missing: the same when the remote has closed the connection, `C147_false`.) -/
theorem C147_recv_partial {r : TcpNode.Run} {n : Nat} (hf : ∀ c, r.FairTo (· = .app (.route c)))
    (hg : r.FairTo (· = .app (.proxyRecv p))) (hp : Shown (app (r.hist n)) (.proxying p i id a))
    (h : ProxyBroke p a (r.hist n)) :
    ∃ m, n ≤ m ∧ ((.dropProxy p, .none) ∈ app (r.hist m) ∨ (.proxyRecv p, .closed) ∈ app (r.hist m)) := by
  have key := C141_proxy (r := Rt.TcpNode.epRun r) (p := p) (i := i) (n := n) (id := id) (a := a)
    (fun c => Rt.TcpNode.fair_app (hf c) (fun y hy => ⟨_, hy, rfl⟩) (fun x hx => by rw [hx])
      (fun x _ _ hx => by rw [hx]; nofun) (fun x _ _ hx => by rw [hx]; nofun))
    (Rt.TcpNode.fair_app hg (fun y hy => ⟨_, hy, rfl⟩) (fun x hx => by rw [hx])
      (fun x _ _ hx => by rw [hx]; nofun) (fun x _ _ hx => by rw [hx]; nofun))
    (by rw [Rt.TcpNode.epRun_hist]; exact hp)
    (by rw [Rt.TcpNode.epRun_hist]; exact proxy_broke_over (r.exec n) h)
  simpa only [Rt.TcpNode.epRun_hist] using key

end

/-- A client connects to `8`, sends a message, and the answer arrives. -/
def Spec.TcpNode.rings : List TcpNode.Action :=
  [.app (.proxy ⟨2, 1⟩ 8), .app (.ep true), .app (.ep true), .app (.ep true), .app (.ep true), .app (.ep true),
    .app (.ep true), .app (.connCmd 0), .app (.proxySend 0 Ep.msgB), .arrive 0 (frame Ep.msgB),
    .read 0 (.read 100), .app (.route 0), .app (.route 0), .app (.route 0)]

/-- The remote is cut off while an answer waits in the channel of the proxy; its user goes on reading. (The
hypotheses of `C147_send_partial` are met as well.) -/
example : ∃ (r : TcpNode.Run) (n : Nat), (∀ c, r.FairTo (· = .app (.route c))) ∧
    r.FairTo (· = .app (.proxyRecv 0)) ∧ Shown (app (r.hist n)) (.proxying 0 0 ⟨2, 1⟩ 8) ∧
    ProxyBroke 0 8 (r.hist n) ∧ (.dropProxy 0, .none) ∉ app (r.hist n) ∧
    (.proxyRecv 0, .closed) ∉ app (r.hist n) ∧
    ((r.state n).ep.ifaces 0).queue = [(Ep.msgB, 8)] := by
  obtain ⟨tr, s, e, h⟩ := exec_by (step := TcpNode.step) (s := TcpNode.init) (rings ++ [.read 0 .failed])
    (fun (tr : Trace) s => decide ((app tr).any (fun x => decide (x.2 = .proxying 0 0 ⟨2, 1⟩ 8)) = true ∧
      (.proxySend 0 Ep.msgB, .accepted 0 Ep.msgB) ∈ app tr ∧
      tr.any (fun x => decide (x.1 = .read 0 .failed)) = true ∧ (.dropProxy 0, .none) ∉ app tr ∧
      (.proxyRecv 0, .closed) ∉ app tr ∧ (s.ep.ifaces 0).queue = [(Ep.msgB, 8)] ∧
      ∀ k, k < s.ep.stubCount → (s.ep.stubs k).pc = .idle)) (by decide +kernel)
  obtain ⟨h1, h2, h3, h4, h5, h6, h7⟩ := of_decide_eq_true h
  obtain ⟨r, ⟨r1, _, _, r4, r5, _⟩, r7⟩ := Rt.TcpNode.reads_on e fun k =>
    (Rt.Ep.idle_iff (Rt.TcpNode.part e) k).mpr (idle_all (Rt.TcpNode.part e) h7 k)
  refine ⟨r, tr.length, r1.route, r7 0, ?_, ?_, by rw [r5]; exact h4, by rw [r5]; exact h5, ?_⟩
  · rw [r5]
    obtain ⟨x, hx, ho⟩ := List.any_eq_true.mp h1
    exact ⟨x.1, by rw [← of_decide_eq_true ho]; exact hx⟩
  · rw [r5]
    obtain ⟨x, hx, ho⟩ := List.any_eq_true.mp h3
    exact .inl ⟨_, 0, h2, .inl ⟨x, hx, .inr (of_decide_eq_true ho)⟩⟩
  · rw [r4, h6]

/-- Not an error that the operating system reports. -/
def Spec.TcpNode.fine : TcpNode.Action → Bool
  | .read _ .broken | .read _ .failed | .write _ .broken | .write _ .failed => false
  | _ => true

/-- **C147 is false.** The remote closes the connection of a proxy, the only one there ever was. Nobody is passed
over, and the user of the proxy goes on reading, but `recv` never reports the end. -/
theorem C147_false : ∃ (r : TcpNode.Run) (n : Nat), TcpNode.Fair r ∧ TcpNode.Read r ∧ TcpNode.Settles r ∧
    (∀ p, r.FairTo (· = .app (.proxyRecv p))) ∧ Shown (app (r.hist n)) (.proxying 0 0 ⟨2, 1⟩ 8) ∧
    (∀ c b, Shown (app (r.hist n)) (.opened c b) → ∃ o, (.shut c, o) ∈ r.hist n) ∧
    ∀ m, (.dropProxy 0, .none) ∉ app (r.hist m) ∧ (.proxyRecv 0, .closed) ∉ app (r.hist m) := by
  obtain ⟨tr, s, e, h⟩ := exec_by (step := TcpNode.step) (s := TcpNode.init) (rings ++ [.shut 0])
    (fun (tr : Trace) s => decide ((app tr).any (fun x => decide (x.2 = .proxying 0 0 ⟨2, 1⟩ 8)) = true ∧
      (.shut 0, ⟨none, none⟩) ∈ tr ∧
      (∀ x ∈ tr, fine x.1 = true) ∧
      (∀ x ∈ app tr, x.1 ≠ .dropProxy 0) ∧ s.ep.connCount = 1 ∧
      ∀ k, k < s.ep.stubCount → (s.ep.stubs k).pc = .idle)) (by decide +kernel)
  obtain ⟨h1, h2, h3, h4, h5, h6⟩ := of_decide_eq_true h
  obtain ⟨r, ⟨r1, r2, r3, r4, r5, r6⟩, r7⟩ := Rt.TcpNode.reads_on e fun k =>
    (Rt.Ep.idle_iff (Rt.TcpNode.part e) k).mpr (idle_all (Rt.TcpNode.part e) h6 k)
  have later : ∀ m, ∃ m' u, m ≤ m' ∧ r.hist m' = tr ++ u ∧ ∀ x ∈ u, TcpNode.Goes x.1 := by
    intro m
    obtain ⟨u, hu, -, hx⟩ := r.segment_acts (Nat.le_max_right m tr.length)
    refine ⟨_, u, Nat.le_max_left m tr.length, by rw [hu, r5], fun x hx' => ?_⟩
    obtain ⟨t₁, t₂, ht⟩ := List.append_of_mem hx'
    obtain ⟨j, j1, j2, -⟩ := hx t₁ x t₂ ht
    exact r6 j x j1 j2
  have mono : ∀ {m m' x}, m ≤ m' → x ∈ app (r.hist m) → x ∈ app (r.hist m') := by
    intro m m' x hm hx
    obtain ⟨t, ht, -⟩ := r.segment hm
    rw [ht, tcp_app_append]
    exact List.mem_append_left _ hx
  have nb : ∀ c, ¬ Broke c tr := by
    rintro c (⟨x, hx, h | h⟩ | ⟨x, hx, h | h⟩) <;> have := h3 x hx <;> rw [h] at this <;> cases this
  have unbroken : ∀ m c, ¬ Broke c (r.hist m) := by
    intro m c hb
    obtain ⟨m', u, l1, l2, l3⟩ := later m
    obtain ⟨t, ht, -⟩ := r.segment l1
    refine nb c (goes_unbroken l3 (l2 ▸ ht ▸ ?_))
    rcases hb with ⟨x, hx, h⟩ | ⟨x, hx, h⟩
    · exact .inl ⟨x, List.mem_append_left _ hx, h⟩
    · exact .inr ⟨x, List.mem_append_left _ hx, h⟩
  refine ⟨r, tr.length, r1, r2, r3, r7, ?_, fun c b hc => ?_, fun m => ⟨fun hm => ?_, fun hm => ?_⟩⟩
  · rw [r5]
    obtain ⟨x, hx, ho⟩ := List.any_eq_true.mp h1
    exact ⟨x.1, by rw [← of_decide_eq_true ho]; exact hx⟩
  · rw [r5] at hc ⊢
    obtain ⟨x, hc⟩ := hc
    have := (Rt.Ep.conn_shown (Rt.TcpNode.part e) c).mpr ⟨b, x, hc⟩
    obtain rfl : c = 0 := by omega
    exact ⟨_, h2⟩
  · obtain ⟨m', u, l1, l2, l3⟩ := later m
    have hm := mono l1 hm
    rw [l2, tcp_app_append] at hm
    rcases List.mem_append.mp hm with hm | hm
    · exact h4 _ hm rfl
    · obtain ⟨⟨x, o⟩, hx, ho⟩ := List.mem_filterMap.mp hm
      have hg := l3 _ hx
      obtain ⟨t, v, rfl⟩ := List.append_of_mem hx
      have e' := r.exec m'
      rw [l2, ← List.append_assoc, List.append_cons] at e'
      obtain ⟨s', e1, -⟩ := e'.split
      obtain ⟨s₁, -, hs⟩ := e1.last
      clear e' e1 l2 hm hx l3
      cases Rt.TcpNode.move_of_step hs <;> cases ho
      exact hg
  · obtain ⟨x, hx, ho⟩ := List.mem_filterMap.mp hm
    obtain ⟨t, u, ht⟩ := List.append_of_mem hx
    have e' := r.exec m
    rw [ht, List.append_cons] at e'
    obtain ⟨s', e1, -⟩ := e'.split
    have := C92_proxy_closed e1 (.inl ho)
    refine unbroken m (s'.ep.proxies 0).conn ?_
    rw [ht]
    rcases this with ⟨x, hx, h⟩ | ⟨x, hx, h⟩
    · exact .inl ⟨x, List.mem_append_left _ hx, h⟩
    · exact .inr ⟨x, List.mem_append_left _ hx, h⟩

end Rsomeip
