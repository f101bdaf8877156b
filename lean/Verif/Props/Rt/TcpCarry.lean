import Verif.Props.Rt.TcpDone
import Verif.Props.Rt.Arrive

/-! # C99: what one program sends the other returns, on a TCP connection -/

namespace Rsomeip

open Rt Rt.TcpNode Spec Spec.TcpNode Someip
open Spec.Ep (Shown accepted wireForm heard settled given routedTo contents meantFor stubGot proxyGot)
open Spec.Node (reads)

/-- Connection `c` is the only one that was opened to `a`, and it is running. -/
structure Spec.TcpNode.Sole (tr : Trace) (c : Nat) (a : Addr) : Prop where
  opened : Shown (app tr) (.opened c a)
  sole : ∀ d, Shown (app tr) (.opened d a) → d = c
  running : ¬ Spec.Ep.ConnOver c (app tr)

/-- A connection has the address it was opened to. -/
theorem Rt.Ep.opened_addr {dg : Bool} {t : Spec.Ep.Trace} {s : Ep.State}
    (e : Exec (Ep.step dg) Ep.init t s) {c : Nat} {a : Addr} (h : Shown t (.opened c a)) :
    c < s.connCount ∧ (s.conns c).addr = a := by
  obtain ⟨x, h⟩ := h
  induction e with
  | nil => cases h
  | @snoc t s s' y o e hs ih =>
    have m := Ep.move_of_step hs
    rcases List.mem_append.mp h with h | h
    · obtain ⟨h1, h2⟩ := ih h
      clear h hs ih e
      cases m <;> first | exact ⟨h1, h2⟩ | (refine ⟨?_, ?_⟩ <;> grind [upd, Ep.newConn, Ep.Conn.ended])
    · cases List.mem_singleton.mp h
      clear h hs ih e
      generalize hy : Ep.Obs.opened c a = y at m
      cases m <;> first | (cases hy; done) | (cases hy; simp [upd, Ep.newConn]; done) | (split at hy <;> cases hy)

section
variable {tr : Trace} {s : State}

/-- What is in reads that end between messages. -/
theorem whole_reads : ∀ (bs : List Bytes), (∀ b ∈ bs, Whole b) →
    (∀ m ∈ bs.flatMap contents, Plain m) ∧ bs.flatten = (bs.flatMap contents).flatMap frame
  | [], _ => ⟨nofun, rfl⟩
  | b :: bs, h => by
    obtain ⟨i1, i2⟩ := whole_reads bs fun x hx => h x (List.mem_cons_of_mem _ hx)
    obtain ⟨ms, h4, h5⟩ := h b (List.mem_cons_self ..)
    have h6 : contents b = ms := by
      rw [h5]; exact Rt.Ep.contents_eq (Frames.flatMap ms h4)
    constructor
    · intro m hm
      rw [List.flatMap_cons, List.mem_append, h6] at hm
      exact hm.elim (h4 m) (i1 m)
    · rw [List.flatten_cons, List.flatMap_cons, List.flatMap_append, ← i2, h6, ← h5]

theorem frames_eq {ms ms' : List Msg} (h : ∀ m ∈ ms, Plain m) (h' : ∀ m ∈ ms', Plain m)
    (he : ms.flatMap frame = ms'.flatMap frame) : ms = ms' :=
  (frames_prefix h h' (he ▸ List.prefix_rfl)).eq_of_length_le
    (frames_prefix h' h (he ▸ List.prefix_rfl)).length_le

theorem tcp_given {t u : Trace} (e : Exec TcpNode.step TcpNode.init (t ++ u) s) (hr : Resting s)
    (hm : Room s) {i : Nat} {id : InterfaceId} (hi : ∃ x, x ∈ app t ∧ Spec.Ep.Created i id x.2)
    {c : Nat} (ha : arrived c t = []) (ho : Ep.Open s.ep i) (hc : Spec.Ep.ConnOpen c (app (t ++ u)))
    {ms : List Msg} (hp : ∀ m ∈ ms, Plain m) (hb : arrived c (t ++ u) = ms.flatMap frame)
    (hw : ∀ b ∈ reads c (app (t ++ u)), Whole b) :
    given c i (app (t ++ u)) = meantFor id ms := by
  obtain ⟨s₁, e₁, e₂⟩ := e.split
  have e3 := part e₁
  have hg := (Ep.good_hist e3).1
  have hic : i < s₁.ep.ifCount ∧ (s₁.ep.ifaces i).id = id := by
    obtain ⟨⟨x, o⟩, h1, ⟨k, h2⟩ | ⟨p, r, h2⟩⟩ := hi
    · dsimp only at h2
      subst h2
      exact ((Ep.made e3).stub k i id ⟨x, h1⟩).2.2
    · dsimp only at h2
      subst h2
      exact ((Ep.made e3).proxy p i id r ⟨x, h1⟩).2.2.2
  have e4 := part_from e₂
  have h0 : settled c (app t) = [] := by
    have h1 : settled c (app t) <+: heard c (app t) := by
      cases hc : (s₁.ep.conns c).alive with
      | true => exact ⟨_, (Ep.line e3).alive c hc⟩
      | false => exact (Ep.line e3).ended c hc
    have h2 := in_hist e₁ c
    rw [ha, List.append_eq_nil_iff, List.flatten_eq_nil_iff] at h2
    have h3 : heard c (app t) = [] := by
      rw [Node.heard_eq, List.flatMap_eq_nil_iff]
      intro b hb
      rw [h2.1 b hb]
      exact Rt.Ep.contents_eq .nil
    rw [h3] at h1
    exact List.prefix_nil.mp h1
  obtain ⟨h1, h2⟩ := C98_received e hr hm hc
  obtain ⟨h5, h6⟩ := whole_reads _ hw
  have h7 : settled c (app (t ++ u)) = ms := by
    rw [h2]
    exact frames_eq h5 hp (by rw [← h6, h1, hb])
  have h3 := Ep.settled_for hg e4 hic.1 hic.2 ho c
  have h4 : given c i (app t) = [] := by
    have := given_sublist c i (app t)
    rw [h0, List.sublist_nil] at this
    exact this
  rw [meantFor_eq, ← h7, TcpNode.app_append, Ep.settled_append, h0, List.nil_append, h3, Ep.given_append, h4,
    List.nil_append]

/-- What is put into channels with address `a` is put there by the only connection to `a`. -/
theorem tcp_routed (e : Exec TcpNode.step TcpNode.init tr s) {a : Addr} {c : Nat} (hc : Sole tr c a)
    (i : Nat) :
    ((routedTo i (app tr)).filter fun x => decide (x.2 = a)).map Prod.fst = given c i (app tr) := by
  refine Ep.routedTo_from (fun x j m h => ?_) (fun j m b h => ?_)
  · obtain ⟨d, rfl, hd⟩ := Node.routed_by (part e) h
    rw [hc.sole d hd]
  · obtain ⟨d, hd, h1⟩ := Node.routed_by (part e) h
    cases hd
    exact (Ep.opened_addr (part e) h1).2.symm.trans (Ep.opened_addr (part e) hc.opened).2

/-- **C99**, the part that holds: on a TCP socket, if interface `id` was served before something arrived
on connection `c`, the only one to `a`, the stub was kept, accepting connections has not failed, the
program cannot get on, `recv_from` waits, and what arrived are the messages `ms`, then what it has
returned from `a` are exactly the messages of `ms` for `id`, each once and in order, provided that every
read ended between messages. What is missing: reads that end inside a message, see below. -/
theorem C99_stub_partial {t u : Trace} {k i c : Nat} {id : InterfaceId} {a : Addr} {ms : List Msg}
    (e : Exec TcpNode.step TcpNode.init (t ++ u) s) (hr : Resting s) (hm : Room s)
    (hk : Shown (app t) (.serving k i id)) (ha : arrived c t = [])
    (hd : (.dropStub k, .none) ∉ app (t ++ u))
    (hg : (.acceptNone (s.ep.stubs k).lis, .ended) ∉ app (t ++ u)) (hc : Sole (t ++ u) c a)
    (hw : TcpNode.step s (.app (.stubRecv k)) = none)
    (hp : ∀ m ∈ ms, Plain m) (hb : arrived c (t ++ u) = ms.flatMap frame)
    (hx : ∀ b ∈ reads c (app (t ++ u)), Whole b) :
    ((stubGot k (app (t ++ u))).filter fun x => decide (x.2 = a)).map Prod.fst = meantFor id ms := by
  have e1 := part e
  obtain ⟨y, hy⟩ := hk
  have hk' : Shown (app (t ++ u)) (.serving k i id) :=
    ⟨y, by rw [TcpNode.app_append]; exact List.mem_append_left _ hy⟩
  obtain ⟨h1, h2, -⟩ := (Ep.made e1).stub k i id hk'
  have h3 := (stub_open e1 h1).resolve_right hd
  have h4 := (lis_lasts e1 h3).resolve_right hg
  have h5 := (Ep.fed e1).open_stub (Ep.good_hist e1).1 h3 h4
  have h6 := (tcp_quiet e hr hm).stubIdle e1 k
  have h7 : (s.ep.ifaces (s.ep.stubs k).iface).queue = [] := by
    cases hq : (s.ep.ifaces (s.ep.stubs k).iface).queue with
    | nil => rfl
    | cons x q => simp [TcpNode.step, does, Ep.step, Ep.stubRecv, h3, h6, hq] at hw
  have h8 := (Ep.pipe e1).stub k h3
  rw [h7, List.append_nil, h2] at h8
  rw [h8, tcp_routed e hc, tcp_given e hr hm ⟨_, hy, .inl ⟨k, rfl⟩⟩ ha (h2 ▸ h5) ⟨⟨_, hc.opened⟩, hc.running⟩ hp hb hx]

/-- **C99**, the part that holds: the same for a proxy whose remote is `r`, as long as the operating
system has not reported an error on the proxy's connection. -/
theorem C99_proxy_partial {t u : Trace} {p i c : Nat} {id : InterfaceId} {r : Addr} {ms : List Msg}
    (e : Exec TcpNode.step TcpNode.init (t ++ u) s) (hr : Resting s) (hm : Room s)
    (hk : Shown (app t) (.proxying p i id r)) (ha : arrived c t = [])
    (hd : (.dropProxy p, .none) ∉ app (t ++ u)) (hg : ¬ Broke (s.ep.proxies p).conn (t ++ u))
    (hc : Sole (t ++ u) c r) (hw : TcpNode.step s (.app (.proxyRecv p)) = none)
    (hp : ∀ m ∈ ms, Plain m) (hb : arrived c (t ++ u) = ms.flatMap frame)
    (hx : ∀ b ∈ reads c (app (t ++ u)), Whole b) :
    proxyGot p (app (t ++ u)) = meantFor id ms := by
  have e1 := part e
  obtain ⟨y, hy⟩ := hk
  have hk' : Shown (app (t ++ u)) (.proxying p i id r) :=
    ⟨y, by rw [TcpNode.app_append]; exact List.mem_append_left _ hy⟩
  obtain ⟨h1, h2, hrem, -⟩ := (Ep.made e1).proxy p i id r hk'
  have h3 := (proxy_open e1 h1).resolve_right hd
  have h4 := (proxy_broke e h3).resolve_right hg
  have h5 := (Ep.fed e1).open_proxy (Ep.good_hist e1).1 h3 h4
  have h7 : (s.ep.ifaces (s.ep.proxies p).iface).queue = [] := by
    cases hq : (s.ep.ifaces (s.ep.proxies p).iface).queue with
    | nil => rfl
    | cons x q => simp [TcpNode.step, does, Ep.step, Ep.proxyRecv, h3, hq] at hw
  have h8 := (Ep.pipe e1).proxy p h3
  rw [h7, List.append_nil, h2] at h8
  rw [Ep.proxyGot_eq e1, h8, hrem, tcp_routed e hc,
    tcp_given e hr hm ⟨_, hy, .inr ⟨p, r, rfl⟩⟩ ha (h2 ▸ h5) ⟨⟨_, hc.opened⟩, hc.running⟩ hp hb hx]

/-- What a program that cannot get on has written to a connection without errors are the messages it
has accepted. -/
theorem tcp_sent (e : Exec TcpNode.step TcpNode.init tr s) (hr : Resting s) (hm : Room s) {c : Nat}
    (hb : ¬ Broke c tr) (hp : ∀ m ∈ accepted c (app tr), Plain m) :
    written c tr = (accepted c (app tr)).flatMap frame := by
  rw [(C98_written e hr hm c).resolve_right hb, List.flatMap_def]
  congr 1
  refine List.map_congr_left fun m hm => ?_
  rw [wireForm, if_pos (hp m hm).2]

end

/-- **C99**, the part that holds: two programs are connected by TCP, which has carried what the first
one has written to the second one. Both cannot get on. Under the conditions of `C99_stub_partial`, what
the stub has returned from its remote are exactly the messages for its interface that `send` and
`send_to` have accepted on the other side, each once, unchanged and in order. -/
theorem C99_to_stub_partial {tr₁ t u : Trace} {s₁ s : State} {c₁ k i c : Nat} {id : InterfaceId}
    {a : Addr} (e₁ : Exec TcpNode.step TcpNode.init tr₁ s₁) (hr₁ : Resting s₁) (hm₁ : Room s₁)
    (hb₁ : ¬ Broke c₁ tr₁) (hp : ∀ m ∈ accepted c₁ (app tr₁), Plain m)
    (e : Exec TcpNode.step TcpNode.init (t ++ u) s) (hr : Resting s) (hm : Room s)
    (hn : arrived c (t ++ u) = written c₁ tr₁)
    (hk : Shown (app t) (.serving k i id)) (ha : arrived c t = [])
    (hd : (.dropStub k, .none) ∉ app (t ++ u))
    (hg : (.acceptNone (s.ep.stubs k).lis, .ended) ∉ app (t ++ u)) (hc : Sole (t ++ u) c a)
    (hw : TcpNode.step s (.app (.stubRecv k)) = none)
    (hx : ∀ b ∈ reads c (app (t ++ u)), Whole b) :
    ((stubGot k (app (t ++ u))).filter fun x => decide (x.2 = a)).map Prod.fst =
      meantFor id (accepted c₁ (app tr₁)) :=
  C99_stub_partial e hr hm hk ha hd hg hc hw hp (hn.trans (tcp_sent e₁ hr₁ hm₁ hb₁ hp)) hx

/-- **C99**, the part that holds: the same for a proxy. -/
theorem C99_to_proxy_partial {tr₁ t u : Trace} {s₁ s : State} {c₁ p i c : Nat} {id : InterfaceId}
    {r : Addr} (e₁ : Exec TcpNode.step TcpNode.init tr₁ s₁) (hr₁ : Resting s₁) (hm₁ : Room s₁)
    (hb₁ : ¬ Broke c₁ tr₁) (hp : ∀ m ∈ accepted c₁ (app tr₁), Plain m)
    (e : Exec TcpNode.step TcpNode.init (t ++ u) s) (hr : Resting s) (hm : Room s)
    (hn : arrived c (t ++ u) = written c₁ tr₁)
    (hk : Shown (app t) (.proxying p i id r)) (ha : arrived c t = [])
    (hd : (.dropProxy p, .none) ∉ app (t ++ u)) (hg : ¬ Broke (s.ep.proxies p).conn (t ++ u))
    (hc : Sole (t ++ u) c r) (hw : TcpNode.step s (.app (.proxyRecv p)) = none)
    (hx : ∀ b ∈ reads c (app (t ++ u)), Whole b) :
    proxyGot p (app (t ++ u)) = meantFor id (accepted c₁ (app tr₁)) :=
  C99_proxy_partial e hr hm hk ha hd hg hc hw hp (hn.trans (tcp_sent e₁ hr₁ hm₁ hb₁ hp)) hx

/-! ### Two programs -/

/-- The proxy at one side, made before something arrives, reads two messages with two reads. -/
def Spec.TcpNode.takes : List TcpNode.Action :=
  sending.take 8 ++ [.arrive 0 ((frame Ep.msgB).take 3),
    .arrive 0 ((frame Ep.msgB).drop 3 ++ frame Ep.msgB'), .read 0 (.read 16), .app (.route 0),
    .app (.route 0), .app (.route 0), .app (.proxyRecv 0), .read 0 (.read 1400), .app (.route 0),
    .app (.route 0), .app (.route 0), .app (.proxyRecv 0)]

/-- A server for the same messages. -/
def Spec.TcpNode.serves : List TcpNode.Action :=
  [.app (.serve ⟨2, 1⟩), .app (.ep true), .app (.ep true), .app (.ep true), .app (.ep true),
    .app (.ep true), .app (.lisCmd 0), .app (.accept 0 8), .app (.lisShare 0),
    .arrive 0 (frame Ep.msgB), .read 0 (.read 100), .app (.route 0), .app (.route 0), .app (.route 0),
    .app (.stubRecv 0), .arrive 0 (frame Ep.msgB'), .read 0 (.read 100), .app (.route 0),
    .app (.route 0), .app (.route 0), .app (.stubRecv 0)]

/-- What `Sole` asks for, as far as it can be seen from a list. -/
def Spec.TcpNode.sole (tr : Trace) (s : State) (a : Addr) : Bool :=
  decide ((∃ x ∈ app tr, x.2 = .opened 0 a) ∧ (s.ep.conns 0).alive = true ∧
    ∀ x ∈ app tr, (match x.2 with | .opened d _ => d == 0 | _ => true) = true)

theorem sole_spec {tr : Trace} {s : State} {a : Addr}
    (e : Exec TcpNode.step TcpNode.init tr s) (h : Spec.TcpNode.sole tr s a = true) :
    Sole tr 0 a := by
  obtain ⟨⟨x, o1, o2⟩, h1, h2⟩ := of_decide_eq_true h
  refine ⟨⟨x.1, o2 ▸ o1⟩, ?_, ((Ep.conn_open_iff (part e) 0).mp h1).2⟩
  rintro d ⟨y, hy⟩
  simpa using h2 _ hy

/-- No error is reported in the history. -/
def Spec.TcpNode.errorless (tr : Trace) : Bool :=
  tr.all fun x => match x.1 with
    | .read _ .broken | .read _ .failed | .write _ .broken | .write _ .failed => false
    | .app (.acceptNone _) => false
    | _ => true

theorem errorless_spec {tr : Trace} (h : Spec.TcpNode.errorless tr = true) (c : Nat) :
    ¬ Broke c tr := by
  rw [Spec.TcpNode.errorless, List.all_eq_true] at h
  rintro (⟨x, h1, h2 | h2⟩ | ⟨x, h1, h2 | h2⟩) <;> simpa [h2] using h x h1

theorem plainB : Plain Ep.msgB := ⟨by unfold Normal; decide, by decide⟩

theorem plainB' : Plain Ep.msgB' := ⟨by unfold Normal; decide, by decide⟩

/-- A program that sends two messages and then cannot get on. -/
theorem sender_case : ∃ tr s, Exec TcpNode.step TcpNode.init tr s ∧ Resting s ∧ Room s ∧
    (∀ c, ¬ Broke c tr) ∧ accepted 0 (app tr) = [Ep.msgB, Ep.msgB'] ∧
    (∀ m ∈ accepted 0 (app tr), Plain m) ∧ written 0 tr = frame Ep.msgB ++ frame Ep.msgB' := by
  obtain ⟨tr, s, e, h⟩ := exec_by (step := TcpNode.step) (s := TcpNode.init)
    (sending ++ [.write 0 (.wrote 100)])
    (fun tr s => Spec.TcpNode.calm s && errorless tr && decide (
      accepted 0 (app tr) = [Ep.msgB, Ep.msgB'] ∧ written 0 tr = frame Ep.msgB ++ frame Ep.msgB'))
    (by decide +kernel)
  simp only [Bool.and_eq_true, decide_eq_true_eq] at h
  obtain ⟨hr, hm⟩ := tcp_calm e h.1.1
  refine ⟨tr, s, e, hr, hm, errorless_spec h.1.2, h.2.1, ?_, h.2.2⟩
  rw [h.2.1]; simp [plainB, plainB']

/-- The hypotheses of `C99_to_proxy_partial`. -/
example : ∃ tr₁ s₁ t u s, Exec TcpNode.step TcpNode.init tr₁ s₁ ∧ Resting s₁ ∧ Room s₁ ∧
    ¬ Broke 0 tr₁ ∧ (∀ m ∈ accepted 0 (app tr₁), Plain m) ∧
    Exec TcpNode.step TcpNode.init (t ++ u) s ∧ Resting s ∧ Room s ∧
    arrived 0 (t ++ u) = written 0 tr₁ ∧ Shown (app t) (.proxying 0 0 ⟨2, 1⟩ 7) ∧ arrived 0 t = [] ∧
    (.dropProxy 0, .none) ∉ app (t ++ u) ∧ ¬ Broke (s.ep.proxies 0).conn (t ++ u) ∧
    Sole (t ++ u) 0 7 ∧ TcpNode.step s (.app (.proxyRecv 0)) = none ∧
    (∀ b ∈ reads 0 (app (t ++ u)), Whole b) ∧ proxyGot 0 (app (t ++ u)) = [Ep.msgB, Ep.msgB'] := by
  obtain ⟨tr₁, s₁, e₁, h1, h2, h3, -, h4, h5⟩ := sender_case
  obtain ⟨tr, s, e, h⟩ := exec_by (step := TcpNode.step) (s := TcpNode.init) takes
    (fun tr s => Spec.TcpNode.calm s && errorless tr && Spec.TcpNode.sole tr s 7 && decide (
      arrived 0 tr = frame Ep.msgB ++ frame Ep.msgB' ∧
      (∃ x ∈ app (tr.take 8), x.2 = .proxying 0 0 ⟨2, 1⟩ 7) ∧ arrived 0 (tr.take 8) = [] ∧
      (.dropProxy 0, .none) ∉ app tr ∧ (TcpNode.step s (.app (.proxyRecv 0))).isNone = true ∧
      reads 0 (app tr) = [frame Ep.msgB, frame Ep.msgB'] ∧
      proxyGot 0 (app tr) = [Ep.msgB, Ep.msgB'])) (by decide +kernel)
  simp only [Bool.and_eq_true, decide_eq_true_eq, Option.isNone_iff_eq_none] at h
  obtain ⟨⟨⟨g1, g2⟩, g3⟩, g4, ⟨x, g5, g6⟩, g7, g8, g9, g10, g11⟩ := h
  obtain ⟨hr, hm⟩ := tcp_calm e g1
  refine ⟨tr₁, s₁, tr.take 8, tr.drop 8, s, e₁, h1, h2, h3 0, h4, ?_⟩
  rw [List.take_append_drop]
  refine ⟨e, hr, hm, by rw [g4, h5], ⟨x.1, g6 ▸ g5⟩, g7, g8, errorless_spec g2 _, sole_spec e g3, g9, ?_,
    g11⟩
  rw [g10]
  simp only [List.mem_cons, List.not_mem_nil, or_false]
  rintro b (rfl | rfl)
  · exact ⟨[_], by simpa using plainB, by simp⟩
  · exact ⟨[_], by simpa using plainB', by simp⟩

/-- The hypotheses of `C99_to_stub_partial`. -/
example : ∃ tr₁ s₁ t u s, Exec TcpNode.step TcpNode.init tr₁ s₁ ∧ Resting s₁ ∧ Room s₁ ∧
    ¬ Broke 0 tr₁ ∧ (∀ m ∈ accepted 0 (app tr₁), Plain m) ∧
    Exec TcpNode.step TcpNode.init (t ++ u) s ∧ Resting s ∧ Room s ∧
    arrived 0 (t ++ u) = written 0 tr₁ ∧ Shown (app t) (.serving 0 0 ⟨2, 1⟩) ∧ arrived 0 t = [] ∧
    (.dropStub 0, .none) ∉ app (t ++ u) ∧
    (.acceptNone (s.ep.stubs 0).lis, .ended) ∉ app (t ++ u) ∧
    Sole (t ++ u) 0 8 ∧ TcpNode.step s (.app (.stubRecv 0)) = none ∧
    (∀ b ∈ reads 0 (app (t ++ u)), Whole b) ∧
    stubGot 0 (app (t ++ u)) = [(Ep.msgB, 8), (Ep.msgB', 8)] := by
  obtain ⟨tr₁, s₁, e₁, h1, h2, h3, -, h4, h5⟩ := sender_case
  obtain ⟨tr, s, e, h⟩ := exec_by (step := TcpNode.step) (s := TcpNode.init) serves
    (fun tr s => Spec.TcpNode.calm s && Spec.TcpNode.sole tr s 8 && decide (
      arrived 0 tr = frame Ep.msgB ++ frame Ep.msgB' ∧
      (∃ x ∈ app (tr.take 8), x.2 = .serving 0 0 ⟨2, 1⟩) ∧ arrived 0 (tr.take 8) = [] ∧
      (.dropStub 0, .none) ∉ app tr ∧ (.acceptNone (s.ep.stubs 0).lis, .ended) ∉ app tr ∧
      (TcpNode.step s (.app (.stubRecv 0))).isNone = true ∧
      reads 0 (app tr) = [frame Ep.msgB, frame Ep.msgB'] ∧
      stubGot 0 (app tr) = [(Ep.msgB, 8), (Ep.msgB', 8)])) (by decide +kernel)
  simp only [Bool.and_eq_true, decide_eq_true_eq, Option.isNone_iff_eq_none] at h
  obtain ⟨⟨g1, g3⟩, g4, ⟨x, g5, g6⟩, g7, g8, g2, g9, g10, g11⟩ := h
  obtain ⟨hr, hm⟩ := tcp_calm e g1
  refine ⟨tr₁, s₁, tr.take 8, tr.drop 8, s, e₁, h1, h2, h3 0, h4, ?_⟩
  rw [List.take_append_drop]
  refine ⟨e, hr, hm, by rw [g4, h5], ⟨x.1, g6 ▸ g5⟩, g7, g8, g2, sole_spec e g3, g9, ?_, g11⟩
  rw [g10]
  simp only [List.mem_cons, List.not_mem_nil, or_false]
  rintro b (rfl | rfl)
  · exact ⟨[_], by simpa using plainB, by simp⟩
  · exact ⟨[_], by simpa using plainB', by simp⟩

/-- **C99 fails as stated.** TCP has carried everything, both programs cannot get on, there were no
errors, the proxy was made before something arrived and was kept; what it has returned is not what was
accepted on the other side, because one read ended inside a message. -/
theorem C99_false : ∃ tr₁ s₁ t u s, Exec TcpNode.step TcpNode.init tr₁ s₁ ∧ Resting s₁ ∧ Room s₁ ∧
    ¬ Broke 0 tr₁ ∧ (∀ m ∈ accepted 0 (app tr₁), Plain m) ∧
    Exec TcpNode.step TcpNode.init (t ++ u) s ∧ Resting s ∧ Room s ∧
    arrived 0 (t ++ u) = written 0 tr₁ ∧ Shown (app t) (.proxying 0 0 ⟨2, 1⟩ 7) ∧ arrived 0 t = [] ∧
    (.dropProxy 0, .none) ∉ app (t ++ u) ∧ ¬ Broke (s.ep.proxies 0).conn (t ++ u) ∧
    Sole (t ++ u) 0 7 ∧ TcpNode.step s (.app (.proxyRecv 0)) = none ∧
    proxyGot 0 (app (t ++ u)) ≠ meantFor ⟨2, 1⟩ (accepted 0 (app tr₁)) := by
  obtain ⟨tr₁, s₁, e₁, h1, h2, h3, h6, h4, h5⟩ := sender_case
  obtain ⟨tr, s, e, h⟩ := exec_by (step := TcpNode.step) (s := TcpNode.init)
    (sending.take 8 ++ [.arrive 0 (frame Ep.msgB), .read 0 (.read 1400), .app (.route 0),
      .app (.route 0), .app (.route 0), .app (.proxyRecv 0), .arrive 0 ((frame Ep.msgB').take 17),
      .read 0 (.read 1400), .app (.route 0), .app (.route 0), .app (.route 0), .app (.proxyRecv 0),
      .arrive 0 ((frame Ep.msgB').drop 17), .read 0 (.read 1400)])
    (fun tr s => Spec.TcpNode.calm s && errorless tr && Spec.TcpNode.sole tr s 7 && decide (
      arrived 0 tr = frame Ep.msgB ++ frame Ep.msgB' ∧
      (∃ x ∈ app (tr.take 8), x.2 = .proxying 0 0 ⟨2, 1⟩ 7) ∧ arrived 0 (tr.take 8) = [] ∧
      (.dropProxy 0, .none) ∉ app tr ∧ (TcpNode.step s (.app (.proxyRecv 0))).isNone = true ∧
      proxyGot 0 (app tr) ≠ meantFor ⟨2, 1⟩ [Ep.msgB, Ep.msgB'])) (by decide +kernel)
  simp only [Bool.and_eq_true, decide_eq_true_eq, Option.isNone_iff_eq_none] at h
  obtain ⟨⟨⟨g1, g2⟩, g3⟩, g4, ⟨x, g5, g6⟩, g7, g8, g9, g10⟩ := h
  obtain ⟨hr, hm⟩ := tcp_calm e g1
  refine ⟨tr₁, s₁, tr.take 8, tr.drop 8, s, e₁, h1, h2, h3 0, h4, ?_⟩
  rw [List.take_append_drop]
  exact ⟨e, hr, hm, by rw [g4, h5], ⟨x.1, g6 ▸ g5⟩, g7, g8, errorless_spec g2 _, sole_spec e g3, g9,
    by rw [h6]; exact g10⟩

end Rsomeip
