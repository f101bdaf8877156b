import Verif.Lemmas.EpAsk
import Verif.Lemmas.EpWords

/-! # C53 to C56: how an endpoint delivers messages -/

namespace Rsomeip

open Rt Rt.Ep Spec Spec.Ep
open Someip (InterfaceId)

/-- A message for service 1. -/
def Spec.Ep.msgA : Msg := ⟨1, 5, 2, 3, 1, 1, .request, .ok, [9]⟩

/-- A message for service 2. -/
def Spec.Ep.msgB : Msg := ⟨2, 5, 2, 3, 1, 1, .response, .ok, []⟩

/-- Another message for service 2. -/
def Spec.Ep.msgB' : Msg := ⟨2, 6, 2, 3, 1, 1, .response, .ok, [1, 2]⟩

/-- A message for another version of service 2. -/
def Spec.Ep.msgC : Msg := ⟨2, 5, 2, 3, 1, 2, .response, .ok, []⟩

/-- Service 1 is served, a peer with address 8 connects, a proxy for service 2 at address 7 is made;
the peer at 8 sends three messages in one packet, the one at 7 sends one. -/
def Spec.Ep.sampleTrace : Trace :=
  [(.serve ⟨1, 1⟩, .none), (.ep true, .none), (.ep true, .none), (.ep true, .none),
    (.ep true, .none), (.ep true, .serving 0 0 ⟨1, 1⟩), (.lisCmd 0, .none),
    (.accept 0 8, .opened 0 8), (.lisShare 0, .none), (.proxy ⟨2, 1⟩ 7, .none), (.ep true, .none),
    (.ep true, .none), (.ep true, .none), (.ep true, .opened 1 7), (.ep true, .none),
    (.ep true, .proxying 0 1 ⟨2, 1⟩ 7), (.connCmd 1, .none),
    (.packet 0 (.packet (frame msgA ++ frame msgB ++ frame msgC)), .none), (.route 0, .none),
    (.route 0, .routed 0 msgA 8), (.route 0, .none), (.route 0, .routed 1 msgB 8),
    (.route 0, .dropped msgC .unknown), (.route 0, .none), (.packet 1 (.packet (frame msgB')), .none),
    (.route 1, .none), (.route 1, .routed 1 msgB' 7), (.stubRecv 0, .message msgA 8),
    (.proxyRecv 0, .skipped msgB 8), (.proxyRecv 0, .reply msgB')]

theorem sampleTrace_exec : ∃ s, Exec (step true) init sampleTrace s := by
  have h : (perform (step true) init (sampleTrace.map Prod.fst)).map
      (fun x => x.1.map Prod.snd) = some (sampleTrace.map Prod.snd) := by decide +kernel
  obtain ⟨s, e⟩ := exec_of_shown h
  exact ⟨s, e⟩

/-! ### C53 -/

/-- **C53.** A message obtained from a stub is for the interface the stub was made for, and a packet
that contains it was received from the reported address. -/
theorem C53_stub {dg : Bool} {tr : Trace} {s : State} {k : Nat} {m : Msg} {a : Addr}
    (e : Exec (step dg) init (tr ++ [(.stubRecv k, .message m a)]) s) :
    (∃ i id, Shown tr (.serving k i id) ∧ For m id) ∧ Sent tr a m := by
  obtain ⟨s₁, e₁, hs⟩ := e.last
  obtain ⟨hg, hh⟩ := good_hist e₁
  cases move_of_step hs with
  | stubRecv _ _ _ q ha hw hq =>
    obtain ⟨h1, h2⟩ := hh.queue _ m a (by rw [hq]; exact List.mem_cons_self ..)
    refine ⟨⟨_, _, (hh.stubs k (stub_lt hg.fresh ha)).2, ?_⟩, h2⟩
    rw [← h1]
    exact ⟨rfl, rfl⟩

/-- **C53.** A message obtained from a proxy is for the interface the proxy was made for, and a
packet that contains it was received from the proxy's remote. -/
theorem C53_proxy {dg : Bool} {tr : Trace} {s : State} {p : Nat} {m : Msg}
    (e : Exec (step dg) init (tr ++ [(.proxyRecv p, .reply m)]) s) :
    ∃ i id a, Shown tr (.proxying p i id a) ∧ For m id ∧ Sent tr a m := by
  obtain ⟨s₁, e₁, hs⟩ := e.last
  obtain ⟨hg, hh⟩ := good_hist e₁
  have hm := move_of_step hs
  generalize hx : Obs.reply m = x at hm
  cases hm with
  | proxyRecv _ m' a q ha hq =>
    split at hx
    · rename_i hr
      cases hx
      obtain ⟨h1, h2⟩ := hh.queue _ m a (by rw [hq]; exact List.mem_cons_self ..)
      refine ⟨_, _, _, (hh.proxies p (proxy_lt hg.fresh ha)).2, ?_, hr ▸ h2⟩
      rw [← h1]
      exact ⟨rfl, rfl⟩
    · cases hx
  | proxyRecvClosed => cases hx

/-- **C53.** A stub is handed out only for an interface the user asked to serve, a proxy only for an
interface and address the user asked for. -/
theorem C53_asked {dg : Bool} {tr : Trace} {s : State} (e : Exec (step dg) init tr s) :
    (∀ k i id, Shown tr (.serving k i id) → (.serve id, .none) ∈ tr) ∧
    ∀ p i id a, Shown tr (.proxying p i id a) → (.proxy id a, .none) ∈ tr := by
  have h := asked e
  constructor
  · rintro k i id ⟨x, hx⟩
    have h1 : Request.serve id ∈ answered tr := List.mem_filterMap.mpr ⟨_, hx, rfl⟩
    have h2 : Request.serve id ∈ requests tr := by
      rw [← h]; exact List.mem_append_left _ (List.mem_append_left _ h1)
    obtain ⟨⟨y, o⟩, hy, he⟩ := List.mem_filterMap.mp h2
    have hy1 : y = .serve id := by
      cases y <;> simp only [reduceCtorEq, Option.some.injEq, Request.serve.injEq] at he
      rw [he]
    subst hy1
    have : o = .none := by
      obtain ⟨t, u, rfl⟩ := List.append_of_mem hy
      rw [← List.singleton_append, ← List.append_assoc] at e
      obtain ⟨_, e1, _⟩ := e.split
      obtain ⟨_, _, hs⟩ := e1.last
      cases move_of_step hs; rfl
    exact this ▸ hy
  · rintro p i id a ⟨x, hx⟩
    have h1 : Request.proxy id a ∈ answered tr := List.mem_filterMap.mpr ⟨_, hx, rfl⟩
    have h2 : Request.proxy id a ∈ requests tr := by
      rw [← h]; exact List.mem_append_left _ (List.mem_append_left _ h1)
    obtain ⟨⟨y, o⟩, hy, he⟩ := List.mem_filterMap.mp h2
    have hy1 : y = .proxy id a := by
      cases y <;> simp only [reduceCtorEq, Option.some.injEq, Request.proxy.injEq] at he
      rw [he.1, he.2]
    subst hy1
    have : o = .none := by
      obtain ⟨t, u, rfl⟩ := List.append_of_mem hy
      rw [← List.singleton_append, ← List.append_assoc] at e
      obtain ⟨_, e1, _⟩ := e.split
      obtain ⟨_, _, hs⟩ := e1.last
      cases move_of_step hs; rfl
    exact this ▸ hy

/-- A stub and a proxy return messages in the sample. -/
example : ∃ s s', Exec (step true) init
      (sampleTrace.take 27 ++ [(.stubRecv 0, .message msgA 8)]) s ∧
    Exec (step true) init (sampleTrace.take 29 ++ [(.proxyRecv 0, .reply msgB')]) s' := by
  obtain ⟨s, e⟩ := sampleTrace_exec
  obtain ⟨s', e', _⟩ := Exec.split
    (show Exec (step true) init (sampleTrace.take 28 ++ sampleTrace.drop 28) s from e)
  exact ⟨s', s, e', e⟩

/-! ### C54 -/

/-- **C54.** From the moment a stub or proxy for an interface is handed out until the last message is
put into its channel, every request for the same interface is refused with "already exists". -/
theorem C54_refused {dg : Bool} {tr tr' : Trace} {x y : Action} {o : Obs} {s : State} {i : Nat}
    {id : InterfaceId} {m : Msg} {a : Addr}
    (e : Exec (step dg) init (tr ++ [(x, o)] ++ (tr' ++ [(y, .routed i m a)])) s)
    (hc : Created i id o) : ∀ z ∈ tr', Answers id z.2 → Refused id z.2 := by
  obtain ⟨s₂, e₂, e₃⟩ := e.split
  obtain ⟨s₁, e₁, hs⟩ := e₂.last
  obtain ⟨s₃, e₄, hs'⟩ := e₃.last
  have hg := (good_hist e₂).1
  have hid : i < s₂.ifCount ∧ (s₂.ifaces i).id = id := by
    rcases hc with ⟨k, rfl⟩ | ⟨p, r, rfl⟩
    · exact ((made e₂).stub k i id (Shown.last ..)).2.2
    · exact ((made e₂).proxy p i id r (Shown.last ..)).2.2.2
  have hpc : s₂.pc = .idle := by
    have hm := move_of_step hs
    clear hid hg e₃ e₄ hs hs' e₂ e
    cases hm <;> rcases hc with ⟨k, h⟩ | ⟨p, r, h⟩ <;> first | rfl | cases h | (split at h <;> cases h)
  have := (exec_while_open hg e₄ hid.1 (routed_open (move_of_step hs')) (by
    rw [hpc]; simp [EpPc.past, EpPc.making])).2
  rw [hid.2] at this
  exact this

/-- **C54.** As soon as a second stub or proxy for an interface is handed out, no message is put
into the channel of the first one any more; and the second one has another channel. -/
theorem C54_one {dg : Bool} {tr tr' tr'' : Trace} {x y : Action} {o o' : Obs} {s : State}
    {i j : Nat} {id : InterfaceId}
    (e : Exec (step dg) init (tr ++ [(x, o)] ++ tr' ++ [(y, o')] ++ tr'') s)
    (hc : Created i id o) (hc' : Created j id o') :
    i ≠ j ∧ ∀ m a, ¬ Shown tr'' (.routed i m a) := by
  refine ⟨(second_closes e hc hc').1, ?_⟩
  · rintro m a ⟨z, hz⟩
    obtain ⟨t, u, rfl⟩ := List.append_of_mem hz
    rw [show tr ++ [(x, o)] ++ tr' ++ [(y, o')] ++ (t ++ (z, .routed i m a) :: u) =
      tr ++ [(x, o)] ++ ((tr' ++ [(y, o')] ++ t) ++ [(z, .routed i m a)]) ++ u by simp] at e
    obtain ⟨s₁, e₁, _⟩ := e.split
    have := C54_refused e₁ hc (y, o') (by simp) (by
      rcases hc' with ⟨k, h⟩ | ⟨p, r, h⟩
      · exact .inl ⟨k, j, h⟩
      · exact .inr (.inl ⟨p, j, r, h⟩))
    rcases hc' with ⟨k, rfl⟩ | ⟨p, r, rfl⟩ <;> rcases this with h | ⟨b, h⟩ <;> cases h

/-- **C54.** As soon as a second stub or proxy for an interface is handed out, a first stub is
closed: `recv_from` does not wait any more. It returns the messages that were put into its channel
before, and then reports that the connection is closed. -/
theorem C54_closed_stub {dg : Bool} {tr tr' tr'' : Trace} {x y : Action} {o' : Obs} {s : State}
    {k i j : Nat} {id : InterfaceId}
    (e : Exec (step dg) init (tr ++ [(x, .serving k i id)] ++ tr' ++ [(y, o')] ++ tr'') s)
    (hc' : Created j id o') :
    let all := tr ++ [(x, .serving k i id)] ++ tr' ++ [(y, o')] ++ tr''
    (.dropStub k, .none) ∉ all → inCall k all = false →
    (stubGot k all = routedTo i all ∧ step dg s (.stubRecv k) = some (s, .closed)) ∨
    ∃ m a rest s', routedTo i all = stubGot k all ++ (m, a) :: rest ∧
      step dg s (.stubRecv k) = some (s', .message m a) := by
  intro all ha hw
  have hk : Shown all (.serving k i id) := (((Shown.last ..).mono _).mono _).mono _
  replace ha := (stub_open_iff e k).mpr ⟨⟨i, id, hk⟩, ha⟩
  replace hw := (idle_iff e k).mpr hw
  have h1 := (second_closes e (.inl ⟨k, rfl⟩) hc').2
  have hg := (good_hist e).1
  have h2 : (s.stubs k).iface = i := ((made e).stub k i id hk).2.1
  have h3 := (pipe e).stub k ha
  have h4 := (hg.readers.rx (.stub k) i ⟨ha, h2⟩).2
  have h5 : s.ifStrong i = false := by
    cases h : s.ifStrong i with
    | false => rfl
    | true => exact absurd ⟨h4, (ifStrong_iff hg.fresh i).mp h⟩ h1
  rw [h2] at h3
  cases hq : (s.ifaces i).queue with
  | nil =>
    rw [hq, List.append_nil] at h3
    exact .inl ⟨h3, by simp [step, stubRecv, ha, hw, h2, hq, h5]⟩
  | cons z q =>
    obtain ⟨m, a⟩ := z
    rw [hq] at h3
    exact .inr ⟨m, a, q, _, h3.symm, by simp [step, stubRecv, ha, hw, h2, hq]; rfl⟩

/-- **C54.** As soon as a second stub or proxy for an interface is handed out, a first proxy is
closed: `recv` does not wait any more. -/
theorem C54_closed_proxy {dg : Bool} {tr tr' tr'' : Trace} {x y : Action} {o' : Obs} {s : State}
    {p i j : Nat} {id : InterfaceId} {r : Addr}
    (e : Exec (step dg) init (tr ++ [(x, .proxying p i id r)] ++ tr' ++ [(y, o')] ++ tr'') s)
    (hc' : Created j id o')
    (ha : (.dropProxy p, .none) ∉ tr ++ [(x, .proxying p i id r)] ++ tr' ++ [(y, o')] ++ tr'') :
    ∃ s' o, step dg s (.proxyRecv p) = some (s', o) ∧
      (o = .closed ∨ (∃ m, o = .reply m) ∨ ∃ m a, o = .skipped m a ∧ a ≠ r) := by
  have h1 := (second_closes e (.inr ⟨p, r, rfl⟩) hc').2
  have hg := (good_hist e).1
  have hp : Shown (tr ++ [(x, .proxying p i id r)] ++ tr' ++ [(y, o')] ++ tr'')
    (.proxying p i id r) := (((Shown.last ..).mono _).mono _).mono _
  replace ha := (proxy_open_iff e p).mpr ⟨⟨i, id, r, hp⟩, ha⟩
  obtain ⟨_, h2, h6, _⟩ := (made e).proxy p i id r hp
  have h4 := (hg.readers.rx (.proxy p) i ⟨ha, h2⟩).2
  have h5 : s.ifStrong i = false := by
    cases h : s.ifStrong i with
    | false => rfl
    | true => exact absurd ⟨h4, (ifStrong_iff hg.fresh i).mp h⟩ h1
  cases hq : (s.ifaces i).queue with
  | nil => exact ⟨s, .closed, by simp [step, proxyRecv, ha, h2, hq, h5], .inl rfl⟩
  | cons z q =>
    obtain ⟨m, a⟩ := z
    refine ⟨_, _, by simp [step, proxyRecv, ha, h2, hq]; exact ⟨rfl, rfl⟩, ?_⟩
    rw [h6]
    by_cases hr : r = a
    · exact .inr (.inl ⟨m, by rw [if_pos hr]⟩)
    · exact .inr (.inr ⟨m, a, by rw [if_neg hr], Ne.symm hr⟩)

/-- Service 1 is served, then asked for again in two ways; then a message arrives for it. -/
def Spec.Ep.refusedTrace : Trace :=
  [(.serve ⟨1, 1⟩, .none), (.ep true, .none), (.ep true, .none), (.ep true, .none),
    (.ep true, .none), (.ep true, .serving 0 0 ⟨1, 1⟩)] ++
  ([(.serve ⟨1, 1⟩, .none), (.proxy ⟨1, 1⟩ 7, .none), (.lisCmd 0, .none), (.ep true, .none),
    (.ep true, .serveFailed ⟨1, 1⟩ .exists), (.ep true, .none),
    (.ep true, .proxyFailed ⟨1, 1⟩ 7 .exists), (.accept 0 8, .opened 0 8),
    (.packet 0 (.packet (frame msgA)), .none), (.route 0, .none)] ++ [(.route 0, .routed 0 msgA 8)])

example : ∃ s, Exec (step false) init refusedTrace s := by
  have h : (perform (step false) init (refusedTrace.map Prod.fst)).map
      (fun x => x.1.map Prod.snd) = some (refusedTrace.map Prod.snd) := by decide +kernel
  obtain ⟨s, e⟩ := exec_of_shown h
  exact ⟨s, e⟩

/-- The connection of a proxy breaks; then another proxy is made for the same interface, and gets a
message. The first proxy reports that it is closed. -/
def Spec.Ep.secondTrace : Trace :=
  [(.proxy ⟨2, 1⟩ 7, .none), (.ep true, .none), (.ep true, .none), (.ep true, .none),
    (.ep true, .opened 0 7), (.ep true, .none)] ++ [(.ep true, .proxying 0 0 ⟨2, 1⟩ 7)] ++
  [(.connCmd 0, .none), (.packet 0 .closed, .ended), (.proxy ⟨2, 1⟩ 7, .none), (.ep true, .none),
    (.ep true, .none), (.ep true, .none), (.ep true, .opened 1 7), (.ep true, .none)] ++
  [(.ep true, .proxying 1 1 ⟨2, 1⟩ 7)] ++
  [(.connCmd 1, .none), (.packet 1 (.packet (frame msgB)), .none), (.route 1, .none),
    (.route 1, .routed 1 msgB 7), (.proxyRecv 0, .closed), (.proxyRecv 1, .reply msgB)]

example : ∃ s, Exec (step true) init secondTrace s := by
  have h : (perform (step true) init (secondTrace.map Prod.fst)).map
      (fun x => x.1.map Prod.snd) = some (secondTrace.map Prod.snd) := by decide +kernel
  obtain ⟨s, e⟩ := exec_of_shown h
  exact ⟨s, e⟩

/-! ### C55 -/

/-- **C55.** What a proxy returned are the first messages of its remote put into its channel: in
order, none from elsewhere, none twice. -/
theorem C55_remote {dg : Bool} {tr : Trace} {s : State} (e : Exec (step dg) init tr s) {p i : Nat}
    {id : InterfaceId} {r : Addr} (hp : Shown tr (.proxying p i id r)) :
    proxyGot p tr <+: ((routedTo i tr).filter (fun x => x.2 = r)).map Prod.fst := by
  obtain ⟨_, h2, h3, _⟩ := (made e).proxy p i id r hp
  have h4 := (pipe e).proxyPrefix p
  rw [proxyGot_eq e p]
  rw [h2, h3] at *
  obtain ⟨t, ht⟩ := h4
  rw [← ht, List.filter_append, List.map_append]
  exact List.prefix_append ..

/-- **C55.** Nothing is lost: a proxy that reports that it is closed has returned all messages of its
remote put into its channel. -/
theorem C55_all {dg : Bool} {tr : Trace} {s : State} {p i : Nat} {id : InterfaceId} {r : Addr}
    (e : Exec (step dg) init (tr ++ [(.proxyRecv p, .closed)]) s)
    (hp : Shown tr (.proxying p i id r)) :
    proxyGot p tr = ((routedTo i tr).filter (fun x => x.2 = r)).map Prod.fst := by
  obtain ⟨s₁, e₁, hs⟩ := e.last
  obtain ⟨_, h2, h3, _⟩ := (made e₁).proxy p i id r hp
  have hm := move_of_step hs
  generalize hx : Obs.closed = x at hm
  cases hm with
  | proxyRecv => split at hx <;> cases hx
  | proxyRecvClosed _ ha hq hs =>
    have h4 := (pipe e₁).proxy p ha
    rw [hq, List.append_nil, h2, h3] at h4
    rw [proxyGot_eq e₁ p, h3, h4]

theorem proxy_next {dg : Bool} {p : Nat} {m : Msg} {rest : List Msg} (q : List (Msg × Addr))
    (s : State) (ha : (s.proxies p).alive = true)
    (hq : (s.ifaces (s.proxies p).iface).queue = q)
    (hm : (q.filter (fun x => x.2 = (s.proxies p).remote)).map Prod.fst = m :: rest) :
    ∃ (skips : Trace) (s' : State),
      Exec (step dg) s (skips ++ [(.proxyRecv p, .reply m)]) s' ∧
      ∀ x ∈ skips, ∃ m' a', x = (.proxyRecv p, .skipped m' a') := by
  induction q generalizing s with
  | nil => simp at hm
  | cons x q ih =>
    obtain ⟨m', a'⟩ := x
    have hs : step dg s (.proxyRecv p) = some
        ({ s with
            ifaces := upd s.ifaces (s.proxies p).iface
              { s.ifaces (s.proxies p).iface with queue := q } },
          if (s.proxies p).remote = a' then .reply m' else .skipped m' a') := by
      simp only [step, proxyRecv, ha, if_true, hq]
    by_cases hr : (s.proxies p).remote = a'
    · rw [if_pos hr] at hs
      rw [List.filter_cons, if_pos (by simp [hr])] at hm
      cases hm
      exact ⟨[], _, .snoc .nil hs, by simp⟩
    · rw [if_neg hr] at hs
      rw [List.filter_cons, if_neg (by simpa using Ne.symm hr)] at hm
      obtain ⟨skips, s', e, h⟩ := ih
        { s with
          ifaces := upd s.ifaces (s.proxies p).iface
            { s.ifaces (s.proxies p).iface with queue := q } } ha (by simp [upd_same]) hm
      refine ⟨(.proxyRecv p, .skipped m' a') :: skips, s', .cons hs e, fun x hx => ?_⟩
      rcases List.mem_cons.mp hx with rfl | hx
      · exact ⟨_, _, rfl⟩
      · exact h x hx

/-- **C55.** A proxy returns the next message of its remote, whatever is queued before it. -/
theorem C55_next {dg : Bool} {tr : Trace} {s : State} (e : Exec (step dg) init tr s) {p i : Nat}
    {id : InterfaceId} {r : Addr} (hp : Shown tr (.proxying p i id r))
    (ha : (.dropProxy p, .none) ∉ tr) {m : Msg} {rest : List Msg}
    (hm : ((routedTo i tr).filter (fun x => x.2 = r)).map Prod.fst = proxyGot p tr ++ m :: rest) :
    ∃ (skips : Trace) (s' : State),
      Exec (step dg) s (skips ++ [(.proxyRecv p, .reply m)]) s' ∧
      ∀ x ∈ skips, ∃ m' a', x = (.proxyRecv p, .skipped m' a') := by
  obtain ⟨_, h2, h3, _⟩ := (made e).proxy p i id r hp
  replace ha := (proxy_open_iff e p).mpr ⟨⟨i, id, r, hp⟩, ha⟩
  have h4 := (pipe e).proxy p ha
  refine proxy_next (rest := rest) _ s ha rfl ?_
  rw [proxyGot_eq e p, ← h2, ← h4, List.filter_append, List.map_append, h3] at hm
  rw [h3]
  exact List.append_cancel_left hm

/-- The proxy in the sample skips one message and returns one. -/
example : proxyGot 0 sampleTrace = [msgB'] ∧ routedTo 1 sampleTrace = [(msgB, 8), (msgB', 7)] ∧
    proxyGot 0 (sampleTrace.take 28) = [] := by decide +kernel

/-! ### C56 -/

/-- **C56.** The messages a connection has dealt with — put into a channel or dropped — are the
first ones of those contained in the packets received from it: in order, each once. -/
theorem C56_in_turn {dg : Bool} {tr : Trace} {s : State} (e : Exec (step dg) init tr s) (c : Nat) :
    settled c tr <+: heard c tr := (line e).prefix c

theorem given_sublist (c i : Nat) (tr : Trace) : (given c i tr).Sublist (settled c tr) := by
  induction tr with
  | nil => exact .slnil
  | cons x tr ih =>
    obtain ⟨a, o⟩ := x
    simp only [given, settled, List.filterMap_cons] at ih ⊢
    cases a <;> cases o <;> first | exact ih | skip
    · rename_i d j m b
      dsimp only
      by_cases hd : d = c
      · by_cases hj : j = i
        · rw [if_pos ⟨hd, hj⟩, if_pos hd]; exact ih.cons_cons m
        · rw [if_neg (fun h => hj h.2), if_pos hd]; exact ih.cons m
      · rw [if_neg (fun h => hd h.1), if_neg hd]; exact ih
    · dsimp only
      split <;> (try exact ih) <;> rename_i h <;> split at h <;> cases h
      exact ih.cons _

/-- **C56.** For each connection and channel, the messages the connection put into the channel are
among the messages contained in the packets received from it, in order, each at most once. -/
theorem C56_order {dg : Bool} {tr : Trace} {s : State} (e : Exec (step dg) init tr s) (c i : Nat) :
    (given c i tr).Sublist (heard c tr) :=
  (given_sublist c i tr).trans (C56_in_turn e c).sublist

/-- **C56.** When a connection receives its next packet, it has dealt with all messages of the
packets before. -/
theorem C56_all {dg : Bool} {tr : Trace} {s : State} {c : Nat} {r : Recv} {o : Obs}
    (e : Exec (step dg) init (tr ++ [(.packet c r, o)]) s) : settled c tr = heard c tr := by
  obtain ⟨s₁, e₁, hs⟩ := e.last
  have h : (s₁.conns c).alive = true ∧ (s₁.conns c).pc = .wait := by
    have hm := move_of_step hs
    cases hm <;> exact ⟨‹_›, ‹_›⟩
  have := (line e₁).alive c h.1
  rwa [h.2, RecvPc.pending, List.append_nil] at this

/-- **C56.** What a stub returned are the first messages put into its channel: in order, each once,
with the address of the connection they came from. -/
theorem C56_stub {dg : Bool} {tr : Trace} {s : State} (e : Exec (step dg) init tr s) {k i : Nat}
    {id : InterfaceId} (hk : Shown tr (.serving k i id)) : stubGot k tr <+: routedTo i tr := by
  have h := (pipe e).stubPrefix k
  rwa [((made e).stub k i id hk).2.1] at h

/-- **C56.** A stub that reports that it is closed has returned everything put into its channel. -/
theorem C56_stub_all {dg : Bool} {tr : Trace} {s : State} {k i : Nat} {id : InterfaceId}
    (e : Exec (step dg) init (tr ++ [(.stubRecv k, .closed)]) s)
    (hk : Shown tr (.serving k i id)) : stubGot k tr = routedTo i tr := by
  obtain ⟨s₁, e₁, hs⟩ := e.last
  have h2 := ((made e₁).stub k i id hk).2.1
  cases move_of_step hs with
  | stubClosed _ ha hw hq hs =>
    have h4 := (pipe e₁).stub k ha
    rwa [hq, List.append_nil, h2] at h4

/-- In the sample, three messages are heard from connection 0, and one of them is put into
channel 0. -/
example : given 0 0 sampleTrace = [msgA] ∧ settled 0 sampleTrace = [msgA, msgB, msgC] ∧
    stubGot 0 sampleTrace = [(msgA, 8)] := by decide +kernel

example : heard 0 sampleTrace = [msgA, msgB, msgC] := by
  have h : contents (frame msgA ++ (frame msgB ++ frame msgC)) = [msgA, msgB, msgC] :=
    contents_route (by decide +kernel)
  simp [heard, sampleTrace, h]

/-- A connection that goes on receiving. -/
example : ∃ s, Exec (step true) init (sampleTrace.take 24 ++ [(.packet 0 (.lagged 1), .none)]) s := by
  have h : (perform (step true) init ((sampleTrace.take 24).map Prod.fst ++
      [.packet 0 (.lagged 1)])).map (fun x => x.1.map Prod.snd) =
      some ((sampleTrace.take 24).map Prod.snd ++ [.none]) := by decide +kernel
  obtain ⟨s, e⟩ := exec_of_shown h
  exact ⟨s, e⟩

end Rsomeip
