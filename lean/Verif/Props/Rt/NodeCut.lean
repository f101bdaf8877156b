import Verif.Lemmas.NodeCut
import Verif.Props.Rt.NodeOpen

/-! # C85: several proxies for the same remote -/

namespace Rsomeip

open Rt Rt.Node Spec Spec.Node Someip

/-- Nothing has gone wrong with the socket, and nothing was dropped: no send and no read failed, and
the `Endpoint` and all stubs and proxies are kept. -/
def Spec.Node.Calm (tr : Trace) : Prop :=
  (∀ c y, (.sent c false, y) ∉ app tr) ∧ (∀ w, (.failure, w) ∉ socket tr) ∧
    (∀ w, (.close, w) ∉ app tr) ∧ (∀ k w, (.dropStub k, w) ∉ app tr) ∧
    ∀ p w, (.dropProxy p, w) ∉ app tr

/-- `Calm`, as a search through the history. -/
def calm (tr : Trace) : Bool :=
  (socket tr).all (fun u => u.1 != .failure) && (app tr).all fun x => match x.1 with
    | .sent _ ok => ok
    | .close => false
    | .dropStub _ => false
    | .dropProxy _ => false
    | _ => true

theorem calm_iff {tr : Trace} (h : calm tr = true) : Calm tr := by
  simp only [calm, Bool.and_eq_true, List.all_eq_true] at h
  obtain ⟨h1, h2⟩ := h
  refine ⟨fun c y hx => ?_, fun w hx => ?_, fun w hx => ?_, fun k w hx => ?_, fun p w hx => ?_⟩
  · cases h2 _ hx
  · cases h1 _ hx
  · cases h2 _ hx
  · cases h2 _ hx
  · cases h2 _ hx

/-- **C85 fails**: on a UDP socket, making a second proxy for a remote, for another interface, ends the
first one, although nothing failed and nothing was dropped: it reports the end and cannot send, and a
message that its remote sends it is dropped. -/
theorem C85_false :
    (∃ tr o s, Exec Node.step Node.init (tr ++ [(.app (.proxyRecv 0), o)]) s ∧
      Spec.Ep.Shown (app tr) (.proxying 0 0 ⟨2, 1⟩ 7) ∧ o.ep = some .closed ∧ Calm tr) ∧
    (∃ tr o s, Exec Node.step Node.init (tr ++ [(.app (.proxySend 0 Ep.msgB), o)]) s ∧
      Spec.Ep.Shown (app tr) (.proxying 0 0 ⟨2, 1⟩ 7) ∧ o.ep = some (.sendFailed .notConnected) ∧
      Calm tr) ∧
    ∃ tr o s, Exec Node.step Node.init (tr ++ [(.app (.route 1), o)]) s ∧
      Spec.Ep.Shown (app tr) (.proxying 0 0 ⟨2, 1⟩ 7) ∧ Spec.Ep.For Ep.msgB ⟨2, 1⟩ ∧
      (∃ w, (.datagram 7 (frame Ep.msgB), w) ∈ tr) ∧ o.ep = some (.dropped Ep.msgB .dead) ∧ Calm tr := by
  refine ⟨?_, ?_, ?_⟩
  · obtain ⟨tr, s, e, h⟩ := exec_by (step := Node.step) (s := Node.init) (twoProxies.take 23)
      (fun tr s => decide (((Node.step s (.app (.proxyRecv 0))).map fun x => x.2.ep) =
        some (some .closed) ∧ (.ep true, .proxying 0 0 ⟨2, 1⟩ 7) ∈ app tr ∧ calm tr = true))
      (by decide +kernel)
    obtain ⟨h1, h2, h3⟩ := of_decide_eq_true h
    obtain ⟨⟨s', o⟩, h4, h5⟩ := Option.map_eq_some_iff.mp h1
    exact ⟨tr, o, s', e.snoc h4, ⟨_, h2⟩, h5, calm_iff h3⟩
  · obtain ⟨tr, s, e, h⟩ := exec_by (step := Node.step) (s := Node.init) (twoProxies.take 24)
      (fun tr s => decide (((Node.step s (.app (.proxySend 0 Ep.msgB))).map fun x => x.2.ep) =
        some (some (.sendFailed .notConnected)) ∧ (.ep true, .proxying 0 0 ⟨2, 1⟩ 7) ∈ app tr ∧
        calm tr = true)) (by decide +kernel)
    obtain ⟨h1, h2, h3⟩ := of_decide_eq_true h
    obtain ⟨⟨s', o⟩, h4, h5⟩ := Option.map_eq_some_iff.mp h1
    exact ⟨tr, o, s', e.snoc h4, ⟨_, h2⟩, h5, calm_iff h3⟩
  · obtain ⟨tr, s, e, h⟩ := exec_by (step := Node.step) (s := Node.init) (twoProxies.take 21)
      (fun tr s => decide (((Node.step s (.app (.route 1))).map fun x => x.2.ep) =
        some (some (.dropped Ep.msgB .dead)) ∧ (.ep true, .proxying 0 0 ⟨2, 1⟩ 7) ∈ app tr ∧
        (tr.any fun x => x.1 == .datagram 7 (frame Ep.msgB)) = true ∧ calm tr = true))
      (by decide +kernel)
    obtain ⟨h1, h2, h3, h6⟩ := of_decide_eq_true h
    obtain ⟨⟨s', o⟩, h4, h5⟩ := Option.map_eq_some_iff.mp h1
    obtain ⟨⟨x, w⟩, h7, h8⟩ := List.any_eq_true.mp h3
    exact ⟨tr, o, s', e.snoc h4, ⟨_, h2⟩, ⟨by decide, by decide⟩,
      ⟨w, by rw [← show x = .datagram 7 (frame Ep.msgB) from eq_of_beq h8]; exact h7⟩, h5, calm_iff h6⟩

/-- **C85**, what the second one does to the first, for every history and continuation: when the
endpoint connects to the remote `r` of a connection again, while the socket is not busy with a packet
from there, then all that the older connection receives until the end of time arrived before. -/
theorem C85_cut_off {tr tr' : Trace} {s s₁ s₂ : State} {c d : Nat} {r : Addr} {o : Node.Obs}
    (e : Exec Node.step Node.init tr s) (hc : Spec.Ep.Shown (app tr) (.opened c r))
    (hpc : Spec.Udp.busy (socket tr) ≠ some r)
    (h : Node.step s (.app (.ep true)) = some (s₁, o)) (ho : o.ep = some (.opened d r))
    (e' : Exec Node.step s₁ tr' s₂) :
    (reads c (app (tr ++ (.app (.ep true), o) :: tr'))).Sublist (arrivals r tr) :=
  cut_off e hc hpc h ho e'

/-- The second proxy is being made; the remote sends a message afterwards. -/
example : ∃ tr tr' s s₁ s₂ o, Exec Node.step Node.init tr s ∧
    Spec.Ep.Shown (app tr) (.opened 0 7) ∧ Spec.Udp.busy (socket tr) ≠ some 7 ∧
    Node.step s (.app (.ep true)) = some (s₁, o) ∧ o.ep = some (.opened 1 7) ∧
    Exec Node.step s₁ tr' s₂ ∧ arrivals 7 tr' = [frame Ep.msgB] := by
  obtain ⟨tr, s, e, h⟩ := exec_by (step := Node.step) (s := Node.init) (twoProxies.take 12)
    (fun tr s => decide ((.ep true, .opened 0 7) ∈ app tr ∧ Spec.Udp.busy (socket tr) ≠ some 7) &&
      (match Node.step s (.app (.ep true)) with
      | some (s₁, o) => decide (o.ep = some (.opened 1 7)) &&
        (match perform Node.step s₁ (twoProxies.drop 13) with
        | some (tr', _) => decide (arrivals 7 tr' = [frame Ep.msgB])
        | none => false)
      | none => false)) (by decide +kernel)
  rw [Bool.and_eq_true] at h
  obtain ⟨h1, h2⟩ := of_decide_eq_true h.1
  have h := h.2
  split at h
  · rename_i s₁ o h3
    rw [Bool.and_eq_true] at h
    have h4 := of_decide_eq_true h.1
    have h := h.2
    split at h
    · rename_i tr' s₂ h5
      exact ⟨tr, tr', s, s₁, s₂, o, e, ⟨_, h1⟩, h2, h3, h4, exec_of_perform h5, of_decide_eq_true h⟩
    · cases h
  · cases h

/-- **C85**, part. What is proved: as long as the socket made one connection to the remote of a proxy,
no message for it is dropped, it does not report the end and sending on it does not fail, unless a send
to the remote failed or the `Endpoint` was dropped and the socket failed. What is missing, because it is
false (`C85_false`): the same if several proxies for the remote are made. -/
theorem C85_single_partial {tr : Trace} {s : State} {x : Node.Action} {o : Node.Obs} {p i : Nat}
    {id : InterfaceId} {r : Addr} (e : Exec Node.step Node.init (tr ++ [(x, o)]) s)
    (hp : Spec.Ep.Shown (app tr) (.proxying p i id r)) (hd : (.dropProxy p, .none) ∉ app tr)
    (h1 : ∀ d d', Udp.Made (socket tr) d r → Udp.Made (socket tr) d' r → d = d')
    (h2 : ∀ c y, Spec.Ep.Shown (app tr) (.opened c r) → (.sent c false, y) ∉ app tr)
    (h3 : ¬ Gone tr) :
    (∀ m w, Spec.Ep.For m id → o.ep ≠ some (.dropped m w)) ∧
      (x = .app (.proxyRecv p) → o.ep ≠ some .closed) ∧
      ∀ m f, x = .app (.proxySend p m) → o.ep ≠ some (.sendFailed f) := by
  have hn : ¬ Cut tr r := by
    rintro (⟨c, hc, y, hy⟩ | ⟨d, d', hne, hd, hd'⟩ | h)
    · exact h2 c y hc hy
    · exact hne (h1 d d' hd hd')
    · exact h3 h
  exact ⟨fun m w hf ho => hn (C84_proxy e ho hp hf hd),
    fun hx ho => hn (C84_proxy_closed e hp (.inl ⟨hx, ho⟩)),
    fun m f hx ho => hn (C84_proxy_closed e hp (.inr ⟨m, f, hx, ho⟩))⟩

/-- One proxy, to which its remote sends a message. -/
def Spec.Node.oneProxy : List Node.Action :=
  twoProxies.take 8 ++ [.datagram 7 (frame Ep.msgB), .task, .task,
    .app (.packet 0 (.packet (frame Ep.msgB))), .app (.route 0), .app (.route 0)]

/-- The connections the socket made, with the address. -/
def madeList (tr : Spec.Udp.Trace) : List (Nat × Addr) :=
  tr.filterMap fun
    | (.connect _, .connection c b) => some (c, b)
    | (.task, .admitted a _ c) => some (c, a)
    | _ => none

theorem mem_madeList {tr : Spec.Udp.Trace} {c : Nat} {a : Addr} (h : Udp.Made tr c a) :
    (c, a) ∈ madeList tr := by
  simp only [madeList, List.mem_filterMap]
  rcases h with h | ⟨p, h⟩
  · exact ⟨_, h, rfl⟩
  · exact ⟨_, h, rfl⟩

/-- The proxy receives the message. -/
example : ∃ tr o s, Exec Node.step Node.init (tr ++ [(.app (.proxyRecv 0), o)]) s ∧
    Spec.Ep.Shown (app tr) (.proxying 0 0 ⟨2, 1⟩ 7) ∧ (.dropProxy 0, .none) ∉ app tr ∧
    (∀ d d', Udp.Made (socket tr) d 7 → Udp.Made (socket tr) d' 7 → d = d') ∧
    (∀ c y, Spec.Ep.Shown (app tr) (.opened c 7) → (.sent c false, y) ∉ app tr) ∧ ¬ Gone tr ∧
    o.ep = some (.reply Ep.msgB) := by
  obtain ⟨tr, s, e, h⟩ := exec_by (step := Node.step) (s := Node.init) oneProxy
    (fun tr s => decide (((Node.step s (.app (.proxyRecv 0))).map fun x => x.2.ep) =
      some (some (.reply Ep.msgB)) ∧ (.ep true, .proxying 0 0 ⟨2, 1⟩ 7) ∈ app tr ∧
      calm tr = true ∧ madeList (socket tr) = [(0, 7)])) (by decide +kernel)
  obtain ⟨h1, h2, h3, h4⟩ := of_decide_eq_true h
  obtain ⟨⟨s', o⟩, h5, h6⟩ := Option.map_eq_some_iff.mp h1
  have hc := calm_iff h3
  refine ⟨tr, o, s', e.snoc h5, ⟨_, h2⟩, hc.2.2.2.2 0 _, fun d d' k1 k2 => ?_,
    fun c y _ => hc.1 c y, fun hg => hc.2.1 _ hg.2, h6⟩
  have k1 := h4 ▸ mem_madeList k1
  have k2 := h4 ▸ mem_madeList k2
  simp only [List.mem_singleton, Prod.mk.injEq] at k1 k2
  rw [k1.1, k2.1]

end Rsomeip
