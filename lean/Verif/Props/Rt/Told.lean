import Verif.Lemmas.EpTold
import Verif.Lemmas.EpSend
import Verif.Props.Rt.Final
import Verif.Props.Rt.Live

/-! # C141: nobody waits for ever for what cannot come -/

namespace Rsomeip

open Rt Rt.Ep Spec Spec.Ep
open Someip (InterfaceId)

/-- The connection of proxy `p` has ended: `send` has said so, or a message that it took was for a connection that
has ended, or all connections that there ever were with the proxy's remote `a` have ended. -/
def Spec.Ep.ProxyOver (p : Nat) (a : Addr) (tr : Trace) : Prop :=
  (∃ m w, (.proxySend p m, .sendFailed w) ∈ tr) ∨
  (∃ m c, (.proxySend p m, .accepted c m) ∈ tr ∧ ConnOver c tr) ∨
  ∀ c, Shown tr (.opened c a) → ConnOver c tr

/-- Listener `l` has ended: the socket said that no more connections will come, or nobody used it any more. -/
def Spec.Ep.LisOver (l : Nat) (tr : Trace) : Prop :=
  (.acceptNone l, .ended) ∈ tr ∨ (.lisCmd l, .ended) ∈ tr

section
variable {dg : Bool} {tr : Trace} {s : State}

theorem proxy_dead (e : Exec (step dg) init tr s) {p i : Nat} {id : InterfaceId} {a : Addr}
    (hp : Shown tr (.proxying p i id a)) (h : ProxyOver p a tr) :
    (s.conns (s.proxies p).conn).alive = false := by
  have hl := ((made e).proxy p i id a hp).1
  have hr := ((made e).proxy p i id a hp).2.2.1
  rcases h with ⟨m, w, h⟩ | ⟨m, c, h, hc⟩ | h
  · obtain ⟨t, u, s₁, s₂, -, e₁, h₁, e₂⟩ : ∃ t u s₁ s₂, tr = t ++ (.proxySend p m, .sendFailed w) :: u ∧
        Exec (step dg) init t s₁ ∧ step dg s₁ (.proxySend p m) = some (s₂, .sendFailed w) ∧
        Exec (step dg) s₂ u s := by
      obtain ⟨t, u, rfl⟩ := List.append_of_mem h
      obtain ⟨s₂, e₁, e₂⟩ := Exec.split (t := t ++ [(.proxySend p m, .sendFailed w)]) (u := u)
        (by rw [List.append_assoc]; exact e)
      obtain ⟨s₁, e₁, h₁⟩ := e₁.last
      exact ⟨t, u, s₁, s₂, rfl, e₁, h₁, e₂⟩
    have hd : s₂ = s₁ ∧ p < s₁.proxyCount ∧ (s₁.proxies p).conn < s₁.connCount ∧
        (s₁.conns (s₁.proxies p).conn).alive = false := by
      generalize hx : Action.proxySend p m = x at h₁
      generalize hy : Obs.sendFailed w = y at h₁
      cases move_of_step h₁ with
      | proxySendFail j n ha hc =>
        cases hx
        exact ⟨rfl, proxy_lt (good_hist e₁).1.fresh ha, ((fed e₁).proxies p ha).1, hc⟩
      | proxySend => cases hy
      | _ => cases hx
    obtain ⟨rfl, h1, h2, h3⟩ := hd
    obtain ⟨_, _, h5⟩ := proxies_exec h1 e₂
    rw [h5]
    exact dead_exec h2 h3 e₂
  · obtain ⟨t, u, rfl⟩ := List.append_of_mem h
    obtain ⟨s₂, e₁, e₂⟩ := Exec.split (t := t ++ [(.proxySend p m, .accepted c m)]) (u := u)
      (by rw [List.append_assoc]; exact e)
    obtain ⟨s₁, e₁, h₁⟩ := e₁.last
    have hd : p < s₁.proxyCount ∧ (s₁.proxies p).conn = c ∧ p < s₂.proxyCount ∧
        (s₂.proxies p).conn = (s₁.proxies p).conn := by
      have hm := move_of_step h₁
      have hk := fun h => hm.proxy_keep (p := p) h
      generalize hx : Action.proxySend p m = x at hm
      generalize hy : Obs.accepted c m = y at hm
      cases hm with
      | proxySend j n ha hc =>
        cases hx; cases hy
        have h1 := proxy_lt (good_hist e₁).1.fresh ha
        exact ⟨h1, rfl, (hk h1).1, (hk h1).2.2⟩
      | proxySendFail => cases hy
      | _ => cases hx
    obtain ⟨_, h2, h3, h4⟩ := hd
    obtain ⟨_, _, h5⟩ := proxies_exec h3 e₂
    rw [h5, h4, h2]
    exact (dead_iff e c).mpr (.inr hc)
  · obtain ⟨h1, h2⟩ := (peers e).proxies p hl
    have h3 := (good_hist e).2.conns _ h1
    rw [h2, hr] at h3
    exact (dead_iff e _).mpr (.inr (h _ h3))

theorem lis_dead (e : Exec (step dg) init tr s) {l : Nat} (h : LisOver l tr) : (s.liss l).alive = false := by
  suffices h : l < s.lisCount ∧ (s.liss l).alive = false from h.2
  induction e with
  | nil => rcases h with h | h <;> cases h
  | @snoc tr s s' x o e hs ih =>
    have m := move_of_step hs
    have h' : LisOver l tr ∨ (x = .acceptNone l ∧ o = .ended) ∨ x = .lisCmd l ∧ o = .ended := by
      simp only [LisOver, List.mem_append, List.mem_singleton, Prod.mk.injEq] at h ⊢
      grind
    rcases h' with h' | h'
    · obtain ⟨h1, h2⟩ := ih h'
      clear h h' ih e hs
      cases m <;> first | exact ⟨h1, h2⟩ | grind [upd, newLis, deadLis]
    · have h1 : (s.liss l).alive = true := by
        clear h ih e hs
        cases m <;> grind
      have h2 := lis_lt (good_hist e).1.fresh h1
      clear h ih e hs
      cases m <;> grind [upd, deadLis]

end

/-- **C141.** Once its connection has ended, `Proxy::send` does not wait: it fails at once, and reports that it
is not connected. -/
theorem C141_send {dg : Bool} {tr : Trace} {s : State} {p i : Nat} {id : InterfaceId} {a : Addr}
    (e : Exec (step dg) init tr s) (hp : Shown tr (.proxying p i id a)) (hd : (.dropProxy p, .none) ∉ tr)
    (h : ProxyOver p a tr) (m : Msg) : step dg s (.proxySend p m) = some (s, .sendFailed .notConnected) :=
  step_of_move (.proxySendFail p m ((proxy_open_iff e p).mpr ⟨⟨i, id, a, hp⟩, hd⟩) (proxy_dead e hp h))

/-- A proxy whose socket could not send, with a message in its channel. -/
example : ∃ s, Exec (step true) init halfTrace s ∧ Shown halfTrace (.proxying 0 0 ⟨2, 1⟩ 7) ∧
    (.dropProxy 0, .none) ∉ halfTrace ∧ ProxyOver 0 7 halfTrace := by
  obtain ⟨s, e⟩ := trace_exec (dg := true) (tr := halfTrace) (by decide +kernel)
  exact ⟨s, e, ⟨.ep true, by decide⟩, by decide, .inr (.inl ⟨msgB, 0, by decide, .inr (.inr ⟨_, by
    unfold halfTrace; simp; rfl⟩)⟩)⟩

variable {dg : Bool} {r : Run dg}

/-- A run in which a step that changes nothing is made for ever. -/
theorem run_loop {tr : Trace} {s : State} {a : Action} {o : Obs} (e : Exec (step dg) init tr s)
    (h : step dg s a = some (s, o)) : ∃ r : Run dg, r.hist tr.length = tr ∧
      ∀ n, tr.length ≤ n → r.state n = s ∧ r.act n = some (a, o) := by
  obtain ⟨r, hr⟩ := run_of_exec e
  have h1 : ∀ n, Next dg (r.state n) (if n < tr.length then r.act n else some (a, o)) (r.state (n + 1)) := by
    intro n
    by_cases hn : n < tr.length
    · rw [if_pos hn]; exact r.next n
    · rw [if_neg hn, (hr n (by omega)).1, (hr (n + 1) (by omega)).1]; exact h
  refine ⟨⟨r.state, _, r.start, h1⟩, ?_, fun n hn => ⟨(hr n hn).1, if_neg (by omega)⟩⟩
  refine Eq.trans ?_ (hr _ (Nat.le_refl _)).2.1
  have h2 : ∀ l : List Nat, (∀ n ∈ l, n < tr.length) →
      l.filterMap (fun n => if n < tr.length then r.act n else some (a, o)) = l.filterMap r.act := by
    intro l hl
    induction l with
    | nil => rfl
    | cons n l ih =>
      rw [List.filterMap_cons, List.filterMap_cons, if_pos (hl n (by simp)), ih fun m hm => hl m (by simp [hm])]
  exact h2 _ fun n hn => List.mem_range.mp hn

theorem proxy_told {p i n : Nat} {id : InterfaceId} {a : Addr} (hf : ∀ c, r.FairTo (· = .route c))
    (hg : r.FairTo (· = .proxyRecv p)) (hp : Shown (r.hist n) (.proxying p i id a))
    (h : ((r.state n).conns ((r.state n).proxies p).conn).alive = false) :
    ∃ m, n ≤ m ∧ ((.dropProxy p, .none) ∈ r.hist m ∨ (.proxyRecv p, .closed) ∈ r.hist m) := by
  apply Classical.byContradiction
  intro hc
  have hp' : ∀ m, n ≤ m → Shown (r.hist m) (.proxying p i id a) := by
    intro m hm
    obtain ⟨t, ht, -⟩ := r.segment hm
    rw [ht]
    exact hp.mono _
  have alive : ∀ m, n ≤ m → ((r.state m).proxies p).alive = true := fun m hm =>
    (proxy_open_iff (r.exec m) p).mpr ⟨⟨i, id, a, hp' m hm⟩, fun h => hc ⟨m, hm, .inl h⟩⟩
  have iface : ∀ m, n ≤ m → ((r.state m).proxies p).iface = i := fun m hm =>
    ((made (r.exec m)).proxy p i id a (hp' m hm)).2.1
  have ho := orphan_proxy (r.exec n) ((made (r.exec n)).proxy p i id a hp).1 h
  rw [iface n (Nat.le_refl _)] at ho
  refine told hf hg ho (fun m hm => ?_) (fun M => ⟨max M n, by omega, fun h1 => ?_⟩) ?_
  · have := ((apart (good_hist (r.exec m)).1.readers).proxy p (alive m hm)).2
    rwa [iface m hm] at this
  · have h2 := alive (max M n) (by omega)
    have h3 := iface (max M n) (by omega)
    cases hq : ((r.state (max M n)).ifaces i).queue with
    | nil =>
      exact ⟨_, _, _, rfl, step_of_move (.proxyRecvClosed p h2 (by rw [h3, hq])
        (by rw [h3]; exact h1.resolve_left (fun h => h hq)))⟩
    | cons x q => exact ⟨_, _, _, rfl, step_of_move (.proxyRecv p x.1 x.2 q h2 (by rw [h3, hq]))⟩
  · rintro m x o s s' hm hx rfl rfl hmv
    have h3 := iface m hm
    have h4 : o ≠ .closed := by
      rintro rfl
      exact hc ⟨m + 1, by omega, .inr (by rw [r.hist_succ, hx]; simp)⟩
    clear hx
    generalize hx : Action.proxyRecv p = x at hmv
    cases hmv <;> first | (cases hx; done) | skip
    case proxyRecv q y b l ha hq =>
      cases hx
      refine ⟨rfl, ?_⟩
      rw [h3] at hq
      simp [h3, upd, hq]
    case proxyRecvClosed => exact absurd rfl h4

/-- **C141.** If the connection of a proxy has ended and its user goes on reading, then in the long run `recv`
reports the end, unless the proxy is dropped. Nothing is asked of the sockets, of the endpoint task, or of the
other users; only that a connection that can put a message into a channel does so. -/
theorem C141_proxy {p i n : Nat} {id : InterfaceId} {a : Addr} (hf : ∀ c, r.FairTo (· = .route c))
    (hg : r.FairTo (· = .proxyRecv p)) (hp : Shown (r.hist n) (.proxying p i id a))
    (h : ProxyOver p a (r.hist n)) :
    ∃ m, n ≤ m ∧ ((.dropProxy p, .none) ∈ r.hist m ∨ (.proxyRecv p, .closed) ∈ r.hist m) :=
  proxy_told hf hg hp (proxy_dead (r.exec n) hp h)

/-- A proxy whose socket could not send; its user has read what was left, and goes on reading. -/
example : ∃ (r : Run true) (n : Nat), (∀ c, r.FairTo (· = .route c)) ∧ r.FairTo (· = .proxyRecv 0) ∧
    Shown (r.hist n) (.proxying 0 0 ⟨2, 1⟩ 7) ∧ ProxyOver 0 7 (r.hist n) ∧
    (.dropProxy 0, .none) ∉ r.hist n ∧ (.proxyRecv 0, .closed) ∉ r.hist n := by
  obtain ⟨tr, s, e, h⟩ := exec_by (step := step true) (s := init)
    (halfTrace.map Prod.fst ++ [.proxyRecv 0])
    (fun tr s => decide (tr = halfTrace ++ [(.proxyRecv 0, .reply msgB)]) &&
      decide ((s.proxies 0).alive = true ∧ (s.ifaces (s.proxies 0).iface).queue = [] ∧
        s.ifStrong (s.proxies 0).iface = false) &&
      (List.range s.connCount).all (fun c => (step true s (.route c)).isNone)) (by decide +kernel)
  simp only [Bool.and_eq_true, decide_eq_true_iff, List.all_eq_true, List.mem_range,
    Option.isNone_iff_eq_none] at h
  obtain ⟨⟨rfl, h1, h2, h3⟩, h4⟩ := h
  obtain ⟨r, r1, r2⟩ := run_loop e (step_of_move (.proxyRecvClosed 0 h1 h2 h3))
  refine ⟨r, _, fun c hio => ?_, fun _ N => ⟨max N _, by omega, _, _, (r2 _ (Nat.le_max_right ..)).2, rfl⟩,
    by rw [r1]; exact ⟨.ep true, by decide⟩, ?_, by rw [r1]; decide, by rw [r1]; decide⟩
  · obtain ⟨n, hn, x, o, s', rfl, hx⟩ := hio (halfTrace ++ [(Action.proxyRecv 0, Obs.reply msgB)]).length
    rw [(r2 n hn).1] at hx
    by_cases hl : c < s.connCount
    · rw [h4 c hl] at hx; cases hx
    · have := (good_hist e).1.fresh.conns c (Nat.not_lt.mp hl)
      cases move_of_step hx <;> simp_all
  · rw [r1]
    exact .inr (.inl ⟨msgB, 0, by decide, .inr (.inr ⟨_, by unfold halfTrace; simp; rfl⟩)⟩)

theorem stub_told {k i n : Nat} {id : InterfaceId} (hf : ∀ c, r.FairTo (· = .route c))
    (hg : r.FairTo (· = .stubRecv k)) (hi : ∀ N, ∃ m, N ≤ m ∧ inCall k (r.hist m) = false)
    (hk : Shown (r.hist n) (.serving k i id))
    (h : ((r.state n).liss ((r.state n).stubs k).lis).alive = false) :
    ∃ m, n ≤ m ∧ ((.dropStub k, .none) ∈ r.hist m ∨ (.stubRecv k, .closed) ∈ r.hist m) := by
  apply Classical.byContradiction
  intro hc
  have hk' : ∀ m, n ≤ m → Shown (r.hist m) (.serving k i id) := by
    intro m hm
    obtain ⟨t, ht, -⟩ := r.segment hm
    rw [ht]
    exact hk.mono _
  have alive : ∀ m, n ≤ m → ((r.state m).stubs k).alive = true := fun m hm =>
    (stub_open_iff (r.exec m) k).mpr ⟨⟨i, id, hk' m hm⟩, fun h => hc ⟨m, hm, .inl h⟩⟩
  have iface : ∀ m, n ≤ m → ((r.state m).stubs k).iface = i := fun m hm =>
    ((made (r.exec m)).stub k i id (hk' m hm)).2.1
  have ho := orphan_stub (r.exec n) ((made (r.exec n)).stub k i id hk).1 h
  rw [iface n (Nat.le_refl _)] at ho
  refine told hf hg ho (fun m hm => ?_) (fun M => ?_) ?_
  · have := ((apart (good_hist (r.exec m)).1.readers).stub k (alive m hm)).2
    rwa [iface m hm] at this
  · obtain ⟨m, hm, h2⟩ := hi (max M n)
    refine ⟨m, by omega, fun h1 => ?_⟩
    have h3 := iface m (by omega)
    have h4 := alive m (by omega)
    have h5 := (idle_iff (r.exec m) k).mpr h2
    cases hq : ((r.state m).ifaces i).queue with
    | nil =>
      exact ⟨_, _, _, rfl, step_of_move (.stubClosed k h4 h5 (by rw [h3, hq])
        (by rw [h3]; exact h1.resolve_left (fun h => h hq)))⟩
    | cons x q => exact ⟨_, _, _, rfl, step_of_move (.stubRecv k x.1 x.2 q h4 h5 (by rw [h3, hq]))⟩
  · rintro m x o s s' hm hx rfl rfl hmv
    have h3 := iface m hm
    have h4 : o ≠ .closed := by
      rintro rfl
      exact hc ⟨m + 1, by omega, .inr (by rw [r.hist_succ, hx]; simp)⟩
    cases hmv with
    | stubRecv k y b l ha hw hq =>
      refine ⟨rfl, ?_⟩
      rw [h3] at hq
      simp [h3, upd, hq]
    | stubClosed => exact absurd rfl h4

/-- **C141.** If no listener is left and the user of a stub goes on reading, that is, calls `recv_from` and again
and again is not inside a call of `send_to`, then in the long run `recv_from` reports the end, unless the stub
is dropped. -/
theorem C141_stub {k i n : Nat} {id : InterfaceId} (hf : ∀ c, r.FairTo (· = .route c))
    (hg : r.FairTo (· = .stubRecv k)) (hi : ∀ N, ∃ m, N ≤ m ∧ inCall k (r.hist m) = false)
    (hk : Shown (r.hist n) (.serving k i id)) (h : ∀ l, l < (r.state n).lisCount → LisOver l (r.hist n)) :
    ∃ m, n ≤ m ∧ ((.dropStub k, .none) ∈ r.hist m ∨ (.stubRecv k, .closed) ∈ r.hist m) := by
  refine stub_told hf hg hi hk ?_
  by_cases hl : ((r.state n).stubs k).lis < (r.state n).lisCount
  · exact lis_dead (r.exec n) (h _ hl)
  · rw [(good_hist (r.exec n)).1.fresh.liss _ (Nat.not_lt.mp hl)]

/-- The socket reports that no more connections will come; the user of the stub goes on reading. -/
example : ∃ (r : Run true) (n : Nat), (∀ c, r.FairTo (· = .route c)) ∧ r.FairTo (· = .stubRecv 0) ∧
    (∀ N, ∃ m, N ≤ m ∧ inCall 0 (r.hist m) = false) ∧ Shown (r.hist n) (.serving 0 0 ⟨1, 1⟩) ∧
    (∀ l, l < (r.state n).lisCount → LisOver l (r.hist n)) ∧
    (.dropStub 0, .none) ∉ r.hist n ∧ (.stubRecv 0, .closed) ∉ r.hist n := by
  obtain ⟨tr, s, e, h⟩ := exec_by (step := step true) (s := init)
    [.serve ⟨1, 1⟩, .ep true, .ep true, .ep true, .ep true, .ep true, .lisCmd 0, .accept 0 7, .lisShare 0,
      .packet 0 (.packet (frame msgA)), .route 0, .acceptNone 0, .route 0, .route 0, .stubRecv 0]
    (fun (tr : Trace) s => decide (tr.any (fun x => decide (x.2 = .serving 0 0 ⟨1, 1⟩)) = true ∧ s.lisCount = 1 ∧
        (.acceptNone 0, .ended) ∈ tr ∧ (.stubRecv 0, .message msgA 7) ∈ tr ∧
        (.dropStub 0, .none) ∉ tr ∧ (.stubRecv 0, .closed) ∉ tr) &&
      decide ((s.stubs 0).alive = true ∧ (s.stubs 0).pc = .idle ∧ (s.ifaces (s.stubs 0).iface).queue = [] ∧
        s.ifStrong (s.stubs 0).iface = false) &&
      (List.range s.connCount).all (fun c => (step true s (.route c)).isNone)) (by decide +kernel)
  simp only [Bool.and_eq_true, decide_eq_true_iff, List.all_eq_true, List.mem_range,
    Option.isNone_iff_eq_none] at h
  obtain ⟨⟨⟨g1, g2, g3, -, g5, g6⟩, h1, h2, h3, h5⟩, h4⟩ := h
  obtain ⟨r, r1, r2⟩ := run_loop e (step_of_move (.stubClosed 0 h1 h2 h3 h5))
  refine ⟨r, tr.length, fun c hio => ?_, fun _ N => ⟨max N _, by omega, _, _, (r2 _ (Nat.le_max_right ..)).2, rfl⟩,
    fun N => ⟨max N tr.length, by omega, ?_⟩, ?_, ?_, by rw [r1]; exact g5, by rw [r1]; exact g6⟩
  · obtain ⟨n, hn, x, o, s', rfl, hx⟩ := hio tr.length
    rw [(r2 n hn).1] at hx
    by_cases hl : c < s.connCount
    · rw [h4 c hl] at hx; cases hx
    · have := (good_hist e).1.fresh.conns c (Nat.not_lt.mp hl)
      cases move_of_step hx <;> simp_all
  · refine (idle_iff (r.exec _) 0).mp ?_
    rw [(r2 _ (Nat.le_max_right ..)).1]
    exact h2
  · rw [r1]
    obtain ⟨x, hx, ho⟩ := List.any_eq_true.mp g1
    exact ⟨x.1, by rw [← of_decide_eq_true ho]; exact hx⟩
  · rw [r1, (r2 _ (Nat.le_refl _)).1, g2]
    intro l hl
    obtain rfl : l = 0 := by omega
    exact .inl g3

end Rsomeip
