import Verif.Lemmas.EpAll
import Verif.Props.Rt.Done
import Verif.Props.Rt.NodeOpen
import Verif.Lemmas.Net

/-! # C94: what arrives is returned, on a UDP socket -/

namespace Rsomeip

open Rt Spec Spec.Ep Spec.Node
open Someip (InterfaceId)

/-- The messages that are for an interface. -/
def Spec.Ep.meantFor (id : InterfaceId) (ms : List Msg) : List Msg :=
  ms.filter fun m => decide (m.service = id.service ∧ m.interface = id.version)

/-- Connection `c` to `a` is running, all datagrams from `a` were put into its channel, and none was
reported as missed. (C57 and C58 say when datagrams are not put into the channel, C61 when they are
missed.) -/
structure Spec.Node.AllTo (tr : Trace) (s : Node.State) (c : Nat) (a : Addr) : Prop where
  opened : Shown (app tr) (.opened c a)
  running : ¬ ConnOver c (app tr)
  fates : ∀ p x, (a, p, x) ∈ Udp.fates (socket tr) → x = some (s.chan c)
  missed : ∀ n, (.recv (s.chan c), .lagged n) ∉ socket tr

section
variable {tr : Spec.Node.Trace} {s : Node.State}

theorem Spec.Node.AllTo.alive (e : Exec Node.step Node.init tr s) {c : Nat} {a : Addr}
    (h : AllTo tr s c a) : (s.ep.conns c).alive = true :=
  (Ep.conn_open_iff (Node.parts e).1 c).mpr ⟨⟨a, h.opened⟩, h.running⟩

theorem meantFor_eq (id : InterfaceId) (ms : List Msg) :
    meantFor id ms = ms.filter fun m => decide (InterfaceId.of m = id) := by
  obtain ⟨x, y⟩ := id
  simp only [meantFor, InterfaceId.of, InterfaceId.mk.injEq]

/-- A connection to `a` has received nothing before something arrived from `a`. -/
theorem settled_before (e : Exec Node.step Node.init tr s) {c : Nat} {a : Addr}
    (h : c < s.ep.connCount → (s.ep.conns c).addr = a) (ha : arrivals a tr = []) :
    settled c (app tr) = [] := by
  obtain ⟨e1, _⟩ := Node.parts e
  have h1 : settled c (app tr) <+: heard c (app tr) := by
    cases hc : (s.ep.conns c).alive with
    | true => exact ⟨_, (Ep.line e1).alive c hc⟩
    | false => exact (Ep.line e1).ended c hc
  by_cases hc : c < s.ep.connCount
  · have h2 := (Ep.good_hist e1).2.conns c hc
    rw [h hc] at h2
    have h3 := Node.read_arrived e h2
    rw [ha, List.sublist_nil] at h3
    rw [Node.heard_eq, h3] at h1
    exact List.prefix_nil.mp h1
  · exact ((Ep.line e1).fresh c (Nat.le_of_not_lt hc)).2

/-- A history of the node that goes on from somewhere is one of the endpoint. -/
theorem _root_.Rsomeip.Rt.Node.parts_ep {s s' : Node.State} {tr : Spec.Node.Trace}
    (e : Exec Node.step s tr s') : Exec (Ep.step true) s.ep (app tr) s'.ep := by
  induction e with
  | nil => exact .nil
  | @snoc tr1 s1 s2 act ob _ hs ih =>
    rw [Node.app_snoc]
    cases Node.move_of_step hs with
    | app x e o s' us out he hc => rw [hc.ep]; exact .snoc ih he
    | net _ u v w ha hn hd hu =>
      have : app [(act, (⟨none, [(u, w)], []⟩ : Node.Obs))] = [] := by
        cases act <;> first | rfl | exact absurd rfl (ha _)
      rw [this, List.append_nil]
      exact ih

theorem given_all {t u : Spec.Node.Trace} (e : Exec Node.step Node.init (t ++ u) s) (hr : Resting s)
    (hm : Room s) {i : Nat} {id : InterfaceId} (hi : ∃ x, (x ∈ app t) ∧ Created i id x.2)
    {a : Addr} (ha : arrivals a t = []) (ho : Ep.Open s.ep i) {c : Nat} (hc : AllTo (t ++ u) s c a) :
    given c i (app (t ++ u)) = meantFor id ((arrivals a (t ++ u)).flatMap contents) := by
  obtain ⟨s₁, e₁, e₂⟩ := e.split
  have e3 := (Node.parts e₁).1
  obtain ⟨hg, hh⟩ := Ep.good_hist e3
  have hic : i < s₁.ep.ifCount ∧ (s₁.ep.ifaces i).id = id := by
    obtain ⟨⟨x, o⟩, h1, ⟨k, h2⟩ | ⟨p, r, h2⟩⟩ := hi
    · dsimp only at h2
      subst h2
      exact ((Ep.made e3).stub k i id ⟨x, h1⟩).2.2
    · dsimp only at h2
      subst h2
      exact ((Ep.made e3).proxy p i id r ⟨x, h1⟩).2.2.2
  have e4 : Exec (Ep.step true) s₁.ep (app u) s.ep :=
    Node.parts_ep e₂
  have h0 : settled c (app t) = [] := by
    refine settled_before e₁ (fun hlt => ?_) ha
    refine Node.opened_unique e ?_ hc.opened
    obtain ⟨y, hy⟩ := hh.conns c hlt
    exact ⟨y, by rw [app_append]; exact List.mem_append_left _ hy⟩
  have h1 := C89_delivered e hr hm hc.opened hc.running hc.fates hc.missed
  have h2 := Ep.settled_for hg e4 hic.1 hic.2 ho c
  have h3 : given c i (app t) = [] := by
    have := given_sublist c i (app t)
    rw [h0, List.sublist_nil] at this
    exact this
  rw [meantFor_eq, ← h1, app_append, Ep.settled_append, h0, List.nil_append, h2, Ep.given_append, h3,
    List.nil_append]

/-- What is put into channels with address `a` is put there by the connection that gets all datagrams
from `a`. -/
theorem routed_all (e : Exec Node.step Node.init tr s) {a : Addr} {c : Nat} (hc : AllTo tr s c a)
    (i : Nat) :
    ((routedTo i (app tr)).filter fun x => decide (x.2 = a)).map Prod.fst = given c i (app tr) := by
  obtain ⟨e1, e2⟩ := Node.parts e
  have hl := Node.link e
  have ht := Node.told e
  refine Ep.routedTo_from (fun x j m h => ?_) (fun j m b h => ?_)
  · obtain ⟨d, rfl, hd⟩ := Node.routed_by e1 h
    apply Decidable.byContradiction
    intro hn
    have hdc : d ≠ c := fun h => hn (by rw [h])
    obtain ⟨hd1, hd2⟩ := ht.opened d a hd
    have hne : s.chan d ≠ s.chan c := fun h => hdc (hl.inj d c hd1 (ht.opened c a hc.opened).1 h)
    obtain ⟨-, hh, -⟩ := Udp.exec_inv e2
    have hp := (hh.conns _ hd2).2.1
    have h1 : Udp.into (s.chan d) (socket tr) = [] := by
      rw [Udp.into, List.filterMap_eq_nil_iff]
      rintro ⟨b, p, x⟩ hx
      have h2 : x ≠ some (s.chan d) := by
        rintro rfl
        have h3 := (hh.peers _ hx _ rfl).2
        have h4 : a = b := hp.symm.trans h3
        subst h4
        exact hne (Option.some.inj (hc.fates p _ hx))
      simp [h2]
    have h2 : Udp.got (s.chan d) (socket tr) = [] := by
      have := Udp.shows_sublist _ _ (hh.shows (s.chan d))
      rw [h1, List.sublist_nil] at this
      exact this
    have h3 : settled d (app tr) <+: heard d (app tr) := by
      cases hc : (s.ep.conns d).alive with
      | true => exact ⟨_, (Ep.line e1).alive d hc⟩
      | false => exact (Ep.line e1).ended d hc
    rw [Node.heard_eq, ht.reads d hd1, h2] at h3
    have h4 : m ∈ settled d (app tr) := by
      rw [settled, List.mem_filterMap]
      exact ⟨_, h, by simp⟩
    rw [List.prefix_nil.mp h3] at h4
    cases h4
  · obtain ⟨d, hd, h1⟩ := Node.routed_by e1 h
    cases hd
    exact Node.opened_unique e h1 hc.opened

/-- **C94.** On a UDP socket: if interface `id` was served before something arrived from `a`, the stub
was kept, connection `c` got all datagrams from `a`, nothing can happen any more, and `recv_from` waits,
then what it has returned from `a` are exactly the messages for `id` in the datagrams from `a`, each
once and in order. -/
theorem C94_stub {t u : Spec.Node.Trace} {k i c : Nat} {id : InterfaceId} {a : Addr}
    (e : Exec Node.step Node.init (t ++ u) s) (hr : Resting s) (hm : Room s)
    (hk : Shown (app t) (.serving k i id)) (ha : arrivals a t = [])
    (hd : (.dropStub k, .none) ∉ app (t ++ u)) (hg : ¬ Gone (t ++ u)) (hc : AllTo (t ++ u) s c a)
    (hw : Node.step s (.app (.stubRecv k)) = none) :
    ((stubGot k (app (t ++ u))).filter fun x => decide (x.2 = a)).map Prod.fst =
      meantFor id ((arrivals a (t ++ u)).flatMap contents) := by
  obtain ⟨e1, -⟩ := Node.parts e
  obtain ⟨y, hy⟩ := hk
  have hk' : Shown (app (t ++ u)) (.serving k i id) :=
    ⟨y, by rw [app_append]; exact List.mem_append_left _ hy⟩
  obtain ⟨h1, h2, -⟩ := (Ep.made e1).stub k i id hk'
  have h3 := (stub_open e1 h1).resolve_right hd
  have h4 := (Node.stub_listens e h3).resolve_right hg
  have h5 := (Ep.fed e1).open_stub (Ep.good_hist e1).1 h3 h4
  have h6 := (quiet e hr hm).stubIdle e1 k
  have h7 : (s.ep.ifaces (s.ep.stubs k).iface).queue = [] := by
    cases hq : (s.ep.ifaces (s.ep.stubs k).iface).queue with
    | nil => rfl
    | cons x q => simp [Node.step, Ep.step, Ep.stubRecv, h3, h6, hq, Node.appCall, Node.still] at hw
  have h8 := (Ep.pipe e1).stub k h3
  rw [h7, List.append_nil, h2] at h8
  rw [h8, routed_all e hc, given_all e hr hm ⟨_, hy, .inl ⟨k, rfl⟩⟩ ha (h2 ▸ h5) hc]

/-- **C94.** On a UDP socket: if a proxy for interface `id` at `r` was made before something arrived from
`r`, it was kept and its connection is running, connection `c` got all datagrams from `r`, nothing can
happen any more, and `recv` waits, then what it has returned are exactly the messages for `id` in the
datagrams from `r`, each once and in order. -/
theorem C94_proxy {t u : Spec.Node.Trace} {p i c : Nat} {id : InterfaceId} {r : Addr}
    (e : Exec Node.step Node.init (t ++ u) s) (hr : Resting s) (hm : Room s)
    (hp : Shown (app t) (.proxying p i id r)) (ha : arrivals r t = [])
    (hd : (.dropProxy p, .none) ∉ app (t ++ u)) (hg : ¬ Cut (t ++ u) r) (hc : AllTo (t ++ u) s c r)
    (hw : Node.step s (.app (.proxyRecv p)) = none) :
    proxyGot p (app (t ++ u)) = meantFor id ((arrivals r (t ++ u)).flatMap contents) := by
  obtain ⟨e1, -⟩ := Node.parts e
  obtain ⟨y, hy⟩ := hp
  have hp' : Shown (app (t ++ u)) (.proxying p i id r) :=
    ⟨y, by rw [app_append]; exact List.mem_append_left _ hy⟩
  obtain ⟨h1, h2, hrem, -⟩ := (Ep.made e1).proxy p i id r hp'
  have h3 := (proxy_open e1 h1).resolve_right hd
  have h4 := (proxy_cut e h3).resolve_right (hrem ▸ hg)
  have h5 := (Ep.fed e1).open_proxy (Ep.good_hist e1).1 h3 h4
  have h7 : (s.ep.ifaces (s.ep.proxies p).iface).queue = [] := by
    cases hq : (s.ep.ifaces (s.ep.proxies p).iface).queue with
    | nil => rfl
    | cons x q => simp [Node.step, Ep.step, Ep.proxyRecv, h3, hq, Node.appCall, Node.still] at hw
  have h8 := (Ep.pipe e1).proxy p h3
  rw [h7, List.append_nil, h2] at h8
  rw [Ep.proxyGot_eq e1, h8, hrem, routed_all e hc,
    given_all e hr hm ⟨_, hy, .inr ⟨p, r, rfl⟩⟩ ha (h2 ▸ h5) hc]

end

/-- All processes wait, and all queues have room. -/
def Spec.Node.calm (s : Node.State) : Bool :=
  (decide (s.udp.pc = .idle ∧ s.ep.pc = .idle ∧ s.ep.cmds = [] ∧ s.ep.epStrong = true)) &&
  (List.range s.ep.connCount).all (fun c => decide ((s.ep.conns c).pc = .wait ∧
    (s.ep.conns c).out = none ∧ (s.ep.conns c).cmds = [] ∧ s.ep.connStrong c = true ∧
    (s.udp.chans (s.chan c)).queue = [] ∧ (s.udp.chans (s.chan c)).missed = 0 ∧
    s.udp.hasSender (s.chan c) = true)) &&
  (List.range s.ep.lisCount).all (fun l => decide ((s.ep.liss l).pc = .wait ∧
    (s.ep.liss l).cmds = [] ∧ s.ep.lisStrong l = true ∧
    (s.udp.backlogs (s.backlog l)).queue = [] ∧ s.udp.listener = some (s.backlog l) ∧
    s.udp.shared = true)) &&
  (List.range s.ep.stubCount).all (fun k => decide ((s.ep.stubs k).pc = .idle ∧
    (s.ep.ifaces (s.ep.stubs k).iface).queue.length < 16)) &&
  (List.range s.ep.proxyCount).all (fun k => decide (
    (s.ep.ifaces (s.ep.proxies k).iface).queue.length < 16))

theorem calm_rests {tr : Spec.Node.Trace} {s : Node.State} (e : Exec Node.step Node.init tr s)
    (h : Spec.Node.calm s = true) : Resting s ∧ Room s := by
  simp only [Spec.Node.calm, Bool.and_eq_true, List.all_eq_true, List.mem_range,
    decide_eq_true_eq] at h
  obtain ⟨⟨⟨⟨h1, h2⟩, h3⟩, h4⟩, h5⟩ := h
  have hg := (Ep.good_hist (Node.parts e).1).1
  refine ⟨?_, ⟨fun k hk => ?_, fun p hp => ?_⟩⟩
  · refine (resting_iff s).mpr (Node.Idle.rests ⟨.inl h1.1, .inr h1.2, fun c hc => ?_, fun l hl => ?_,
      fun k hk => (h4 k hk).1⟩ hg)
    · exact ⟨(h2 c hc).1, (h2 c hc).2.1, fun _ => (h2 c hc).2.2⟩
    · exact ⟨(h3 l hl).1, fun _ => (h3 l hl).2⟩
  · exact (h4 k (Ep.stub_lt hg.fresh hk)).2
  · exact h5 p (Ep.proxy_lt hg.fresh hp)

/-- After what happens in `busy`, the stub takes the rest, and the proxy is sent a message. -/
def Spec.Node.emptied : List Node.Action :=
  Spec.Node.busy ++ [.app (.stubRecv 0), .datagram 7 (frame Ep.msgA ++ frame Ep.msgB), .task, .task,
    .app (.packet 0 (.packet (frame Ep.msgA ++ frame Ep.msgB))), .app (.route 0), .app (.route 0),
    .app (.route 0), .app (.route 0), .app (.route 0), .app (.proxyRecv 0), .app (.proxyRecv 0),
    .app (.stubRecv 0)]

/-- Then the hypotheses of `C94_stub` hold for the stub and address 8, and those of `C94_proxy` for the
proxy. -/
example : ∃ t u s, Exec Node.step Node.init (t ++ u) s ∧ Resting s ∧ Room s ∧
    (Shown (app t) (.serving 0 0 ⟨1, 1⟩) ∧ arrivals 8 t = [] ∧
      (.dropStub 0, .none) ∉ app (t ++ u) ∧ ¬ Gone (t ++ u) ∧ AllTo (t ++ u) s 1 8 ∧
      Node.step s (.app (.stubRecv 0)) = none ∧
      stubGot 0 (app (t ++ u)) = [(Ep.msgA, 8), (Ep.msgA, 8), (Ep.msgA, 7)]) ∧
    Shown (app t) (.proxying 0 1 ⟨2, 1⟩ 7) ∧ arrivals 7 t = [] ∧
      (.dropProxy 0, .none) ∉ app (t ++ u) ∧ ¬ Cut (t ++ u) 7 ∧ AllTo (t ++ u) s 0 7 ∧
      Node.step s (.app (.proxyRecv 0)) = none ∧ proxyGot 0 (app (t ++ u)) = [Ep.msgB] := by
  obtain ⟨tr, s, e, h⟩ := exec_by (step := Node.step) (s := Node.init) Spec.Node.emptied
    (fun tr s => Spec.Node.calm s && decide (
      ((∃ x ∈ app (tr.take 15), x.2 = .serving 0 0 ⟨1, 1⟩) ∧ arrivals 8 (tr.take 15) = [] ∧
        (.dropStub 0, .none) ∉ app tr ∧ (Node.step s (.app (.stubRecv 0))).isNone = true ∧
        stubGot 0 (app tr) = [(Ep.msgA, 8), (Ep.msgA, 8), (Ep.msgA, 7)]) ∧
      ((∃ x ∈ app (tr.take 15), x.2 = .proxying 0 1 ⟨2, 1⟩ 7) ∧ arrivals 7 (tr.take 15) = [] ∧
        (.dropProxy 0, .none) ∉ app tr ∧ (Node.step s (.app (.proxyRecv 0))).isNone = true ∧
        proxyGot 0 (app tr) = [Ep.msgB]) ∧
      (∃ x ∈ app tr, x.2 = .opened 1 8) ∧ (∃ x ∈ app tr, x.2 = .opened 0 7) ∧
      (s.ep.conns 1).alive = true ∧ (s.ep.conns 0).alive = true ∧ s.chan 1 = 1 ∧ s.chan 0 = 0 ∧
      (∀ e ∈ Udp.fates (socket tr), e.1 = 8 → e.2.2 = some 1) ∧
      (∀ e ∈ Udp.fates (socket tr), e.1 = 7 → e.2.2 = some 0) ∧
      (.failure, .none) ∉ socket tr ∧
      (∀ e ∈ socket tr, (match e with | (_, .lagged _) => false | _ => true) = true) ∧
      (∀ e ∈ app tr, (match e with | (.sent _ false, _) => false | _ => true) = true) ∧
      ∀ e ∈ socket tr, (match e with
        | (.connect _, .connection c a) | (.task, .admitted a _ c) => a != 7 || c == 0
        | _ => true) = true))
    (by decide +kernel)
  simp only [Bool.and_eq_true, decide_eq_true_eq, Option.isNone_iff_eq_none] at h
  obtain ⟨hc, ⟨⟨x, s1, s2⟩, s3, s4, s5, s6⟩, ⟨⟨y, p1, p2⟩, p3, p4, p5, p6⟩, ⟨z, o1, o2⟩, ⟨w, o3, o4⟩,
    a1, a2, c1, c2, f1, f2, nf, nl, ns, nm⟩ := h
  obtain ⟨hr, hm⟩ := calm_rests e hc
  replace a1 := ((Ep.conn_open_iff (Node.parts e).1 1).mp a1).2
  replace a2 := ((Ep.conn_open_iff (Node.parts e).1 0).mp a2).2
  refine ⟨tr.take 15, tr.drop 15, s, ?_⟩
  rw [List.take_append_drop]
  refine ⟨e, hr, hm, ⟨⟨x.1, s2 ▸ s1⟩, s3, s4, ?_, ⟨⟨z.1, o2 ▸ o1⟩, a1, ?_, ?_⟩, s5, s6⟩,
    ⟨y.1, p2 ▸ p1⟩, p3, p4, ?_, ⟨⟨w.1, o4 ▸ o3⟩, a2, ?_, ?_⟩, p5, p6⟩
  · exact fun hx => nf hx.2
  · rw [c1]; exact fun p x hx => f1 _ hx rfl
  · exact fun n hx => absurd (nl _ hx) (by simp)
  · have made : ∀ d, Udp.Made (socket tr) d 7 → d = 0 := by
      rintro d (h | ⟨p, h⟩) <;> simpa using nm _ h
    rintro (⟨c, -, y, h⟩ | ⟨d, d', hd, h1, h2⟩ | h)
    · exact absurd (ns _ h) (by simp)
    · exact hd ((made d h1).trans (made d' h2).symm)
    · exact nf h.2
  · rw [c2]; exact fun p x hx => f2 _ hx rfl
  · exact fun n hx => absurd (nl _ hx) (by simp)

end Rsomeip
