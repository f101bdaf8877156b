import Verif.Lemmas.NetRun
import Verif.Props.Rt.LiveNet
import Verif.Props.Rt.NodeOpen

/-! # C133: in the long run a handle returns what is sent to it -/

namespace Rsomeip

section
open Rt Rt.Ep Spec Spec.Ep Someip

variable {dg : Bool} {r : Run dg}

/-- If every step made from `N` on keeps a number from falling, and those of some kind make it grow, and
these are possible again and again, then the number grows beyond every bound. -/
theorem ep_grows {P : Action → Prop} (hf : r.FairTo P) (f : Nat → Nat) {N : Nat}
    (h1 : ∀ n, N ≤ n → f n ≤ f (n + 1)) (h2 : ∀ n, N ≤ n → r.Does n P → f n < f (n + 1))
    (h3 : ∀ M, ∃ n, M ≤ n ∧ Enabled dg (r.state n) P) (K : Nat) : ∃ n, N ≤ n ∧ K ≤ f n := by
  have mono : ∀ n m, N ≤ n → n ≤ m → f n ≤ f m := by
    intro n m hn hm
    induction m, hm using Nat.le_induction with
    | base => exact Nat.le_refl _
    | succ m hm ih => exact Nat.le_trans ih (h1 m (by omega))
  induction K with
  | zero => exact ⟨N, Nat.le_refl _, Nat.zero_le _⟩
  | succ K ih =>
    obtain ⟨n, h4, h5⟩ := ih
    obtain ⟨m, h6, h7⟩ := hf h3 n
    have := mono n m h4 h6
    have := h2 m (by omega) h7
    exact ⟨m + 1, by omega, by omega⟩

theorem routedTo_append (i : Nat) (t u : Trace) : routedTo i (t ++ u) = routedTo i t ++ routedTo i u := by
  simp only [routedTo, List.filterMap_append]

theorem stubGot_append (k : Nat) (t u : Trace) : stubGot k (t ++ u) = stubGot k t ++ stubGot k u := by
  simp only [stubGot, List.filterMap_append]

theorem took_append (p : Nat) (a : Addr) (t u : Trace) : took p a (t ++ u) = took p a t ++ took p a u := by
  simp only [took, List.filterMap_append]

/-- **C133.** If the user of a stub calls `recv_from` again and again, and again and again is not inside a call
of `send_to`, then the stub returns everything that was put into its channel. Nothing is asked of anybody
else. -/
theorem C133_stub {k i n : Nat} {id : InterfaceId} (hf : r.FairTo (· = .stubRecv k))
    (hi : ∀ N, ∃ m, N ≤ m ∧ inCall k (r.hist m) = false) (hk : Shown (r.hist n) (.serving k i id)) :
    ∃ m, n ≤ m ∧ ((.dropStub k, .none) ∈ r.hist m ∨ routedTo i (r.hist n) <+: stubGot k (r.hist m)) := by
  apply Classical.byContradiction
  intro hc
  have hk' : ∀ m, n ≤ m → Shown (r.hist m) (.serving k i id) := by
    intro m hm
    obtain ⟨t, ht, -⟩ := r.segment hm
    rw [ht]
    exact hk.mono _
  have alive : ∀ m, n ≤ m → ((r.state m).stubs k).alive = true := fun m hm =>
    (stub_open_iff (r.exec m) k).mpr ⟨⟨i, id, hk' m hm⟩, fun h => hc ⟨m, hm, .inl h⟩⟩
  have pipe : ∀ m, n ≤ m → stubGot k (r.hist m) ++ ((r.state m).ifaces ((r.state m).stubs k).iface).queue =
      routedTo i (r.hist m) := by
    intro m hm
    have h1 := (Rt.Ep.pipe (r.exec m)).stub k (alive m hm)
    rw [h1, ((made (r.exec m)).stub k i id (hk' m hm)).2.1]
  have short : ∀ m, n ≤ m → (stubGot k (r.hist m)).length < (routedTo i (r.hist n)).length := by
    intro m hm
    obtain ⟨t, ht, -⟩ := r.segment hm
    refine Nat.lt_of_not_le fun hle => hc ⟨m, hm, .inr ?_⟩
    refine List.prefix_of_prefix_length_le (l₃ := routedTo i (r.hist m)) ?_ ⟨_, pipe m hm⟩ hle
    rw [ht, routedTo_append]
    exact List.prefix_append ..
  have queue : ∀ m, n ≤ m → ((r.state m).ifaces ((r.state m).stubs k).iface).queue ≠ [] := by
    intro m hm h
    have h1 := pipe m hm
    rw [h, List.append_nil] at h1
    obtain ⟨t, ht, -⟩ := r.segment hm
    have h2 := short m hm
    rw [h1, ht, routedTo_append, List.length_append] at h2
    omega
  obtain ⟨m, h1, h2⟩ := ep_grows hf (fun m => (stubGot k (r.hist m)).length) (N := n)
    (fun m _ => by
      show _ ≤ _
      rw [r.hist_succ, stubGot_append, List.length_append]
      omega)
    (fun m hm hd => by
      obtain ⟨a, o, h1, rfl⟩ := hd
      show _ < _
      rw [r.hist_succ, stubGot_append, List.length_append, h1, Option.toList_some]
      rcases r.move m with ⟨h2, _⟩ | ⟨a, o', h2, h3⟩
      · rw [h1] at h2; cases h2
      · rw [h1] at h2
        cases h2
        have h4 := queue m hm
        generalize r.state (m + 1) = s' at h3
        cases move_of_step h3 with
        | stubRecv => simp [stubGot]
        | stubClosed _ _ _ hq => exact absurd hq h4)
    (fun M => by
      obtain ⟨m, h1, h2⟩ := hi (max M n)
      obtain ⟨⟨x, b⟩, q, hq⟩ := List.exists_cons_of_ne_nil (queue m (by omega))
      exact ⟨m, by omega, _, _, _, rfl, step_of_move (.stubRecv k x b q (alive m (by omega))
        ((idle_iff (r.exec m) k).mpr h2) hq)⟩)
    (routedTo i (r.hist n)).length
  have := short m h1
  omega

/-- **C133.** If the user of a proxy calls `recv` again and again, then the proxy returns everything from its
remote that was put into its channel. Nothing is asked of anybody else. -/
theorem C133_proxy {p i n : Nat} {id : InterfaceId} {a : Addr} (hf : r.FairTo (· = .proxyRecv p))
    (hp : Shown (r.hist n) (.proxying p i id a)) :
    ∃ m, n ≤ m ∧ ((.dropProxy p, .none) ∈ r.hist m ∨
      ((routedTo i (r.hist n)).filter fun x => x.2 = a).map Prod.fst <+: proxyGot p (r.hist m)) := by
  apply Classical.byContradiction
  intro hc
  have hp' : ∀ m, n ≤ m → Shown (r.hist m) (.proxying p i id a) := by
    intro m hm
    obtain ⟨t, ht, -⟩ := r.segment hm
    rw [ht]
    exact hp.mono _
  have alive : ∀ m, n ≤ m → ((r.state m).proxies p).alive = true := fun m hm =>
    (proxy_open_iff (r.exec m) p).mpr ⟨⟨i, id, a, hp' m hm⟩, fun h => hc ⟨m, hm, .inl h⟩⟩
  have remote : ∀ m, n ≤ m → ((r.state m).proxies p).remote = a := fun m hm =>
    ((made (r.exec m)).proxy p i id a (hp' m hm)).2.2.1
  have pipe : ∀ m, n ≤ m → took p a (r.hist m) ++ ((r.state m).ifaces ((r.state m).proxies p).iface).queue =
      routedTo i (r.hist m) := by
    intro m hm
    have h1 := (Rt.Ep.pipe (r.exec m)).proxy p (alive m hm)
    rw [remote m hm] at h1
    rw [h1, ((made (r.exec m)).proxy p i id a (hp' m hm)).2.1]
  have short : ∀ m, n ≤ m → (took p a (r.hist m)).length < (routedTo i (r.hist n)).length := by
    intro m hm
    obtain ⟨t, ht, -⟩ := r.segment hm
    refine Nat.lt_of_not_le fun hle => hc ⟨m, hm, .inr ?_⟩
    have h1 : routedTo i (r.hist n) <+: took p a (r.hist m) := by
      refine List.prefix_of_prefix_length_le (l₃ := routedTo i (r.hist m)) ?_ ⟨_, pipe m hm⟩ hle
      rw [ht, routedTo_append]
      exact List.prefix_append ..
    rw [proxyGot_eq (r.exec m) p, remote m hm]
    exact (h1.filter _).map _
  have queue : ∀ m, n ≤ m → ((r.state m).ifaces ((r.state m).proxies p).iface).queue ≠ [] := by
    intro m hm h
    have h1 := pipe m hm
    rw [h, List.append_nil] at h1
    obtain ⟨t, ht, -⟩ := r.segment hm
    have h2 := short m hm
    rw [h1, ht, routedTo_append, List.length_append] at h2
    omega
  obtain ⟨m, h1, h2⟩ := ep_grows hf (fun m => (took p a (r.hist m)).length) (N := n)
    (fun m _ => by
      show _ ≤ _
      rw [r.hist_succ, took_append, List.length_append]
      omega)
    (fun m hm hd => by
      obtain ⟨b, o, h1, rfl⟩ := hd
      show _ < _
      rw [r.hist_succ, took_append, List.length_append, h1, Option.toList_some]
      rcases r.move m with ⟨h2, _⟩ | ⟨b, o', h2, h3⟩
      · rw [h1] at h2; cases h2
      · rw [h1] at h2
        cases h2
        have h4 := queue m hm
        generalize r.state (m + 1) = s' at h3
        generalize hx : Action.proxyRecv p = x at h3
        cases move_of_step h3 <;> first | (cases hx; done) | skip
        case proxyRecv =>
          cases hx
          split <;> simp [took]
        case proxyRecvClosed _ hq _ =>
          cases hx
          exact absurd hq h4)
    (fun M => by
      obtain ⟨⟨x, b⟩, q, hq⟩ := List.exists_cons_of_ne_nil (queue (max M n) (by omega))
      exact ⟨max M n, by omega, _, _, _, rfl, step_of_move (.proxyRecv p x b q (alive _ (by omega)) hq)⟩)
    (routedTo i (r.hist n)).length
  have := short m h1
  omega

/-- A stub and a proxy that return what was put into their channels. -/
example : ∃ (r : Run true) (n : Nat), r.FairTo (· = .stubRecv 0) ∧ r.FairTo (· = .proxyRecv 0) ∧
    (∀ N, ∃ m, N ≤ m ∧ inCall 0 (r.hist m) = false) ∧ Shown (r.hist n) (.serving 0 0 ⟨1, 1⟩) ∧
    Shown (r.hist n) (.proxying 0 1 ⟨2, 1⟩ 7) ∧ (routedTo 0 (r.hist n)).length = 1 ∧
    (((routedTo 1 (r.hist n)).filter fun x => x.2 = 7).map Prod.fst).length = 1 := by
  obtain ⟨tr, s, e, h⟩ := exec_by (step := step true) (s := init) liveActions
    (fun tr s => halted true s && decide (inCall 0 tr = false ∧ tr.any (fun x => decide (x.2 = .serving 0 0 ⟨1, 1⟩)) = true ∧
      tr.any (fun x => decide (x.2 = .proxying 0 1 ⟨2, 1⟩ 7)) = true ∧ (routedTo 0 tr).length = 1 ∧
      (((routedTo 1 tr).filter fun x => x.2 = 7).map Prod.fst).length = 1))
    (by decide +kernel)
  rw [Bool.and_eq_true, decide_eq_true_iff] at h
  obtain ⟨h0, h1, h2, h3, h4, h5⟩ := h
  obtain ⟨r, -, -, hs, hp, he⟩ := halted_fair e h0
  have shown : ∀ {w : Rt.Ep.Obs}, tr.any (fun x => decide (x.2 = w)) = true → Shown tr w := by
    intro w h
    obtain ⟨⟨y, w'⟩, h9, h10⟩ := List.any_eq_true.mp h
    simp only [decide_eq_true_eq] at h10
    exact ⟨y, by rw [← h10]; exact h9⟩
  refine ⟨r, tr.length, hs 0, hp 0, fun N => ⟨max N tr.length, Nat.le_max_left .., ?_⟩, ?_⟩
  · rw [(he _ (Nat.le_max_right ..)).2]; exact h1
  · rw [(he _ (Nat.le_refl _)).2]
    exact ⟨shown h2, shown h3, h4, h5⟩

/-- What has happened determines the state. -/
theorem exec_unique {σ α ω : Type} {step : σ → α → Option (σ × ω)} {s₀ s s' : σ} {tr : List (α × ω)}
    (e : Exec step s₀ tr s) (e' : Exec step s₀ tr s') : s = s' := by
  induction e generalizing s' with
  | nil =>
    generalize h : ([] : List (α × ω)) = l at e'
    cases e' with
    | nil => rfl
    | snoc => simp at h
  | snoc _ h ih =>
    obtain ⟨s₁, e₁, h'⟩ := e'.last
    cases ih e₁
    rw [h] at h'
    cases h'
    rfl

/-- A proxy sends on its connection only. -/
theorem proxy_sends {tr : Spec.Ep.Trace} {s : Ep.State} (e : Exec (Ep.step dg) Ep.init tr s) {p c : Nat} {m m' : Msg}
    (h : (.proxySend p m, .accepted c m') ∈ tr) : (s.proxies p).conn = c := by
  obtain ⟨t₁, t₂, rfl⟩ := List.append_of_mem h
  rw [← List.singleton_append, ← List.append_assoc] at e
  obtain ⟨s₁, e₁, e₂⟩ := e.split
  obtain ⟨s₀, e₀, hs⟩ := e₁.last
  cases move_of_step hs with
  | proxySend _ _ ha =>
    have h1 : p < s₀.proxyCount := proxy_lt (good_hist e₀).1.fresh ha
    have h2 := proxies_exec (p := p) (by exact h1) e₂
    exact h2.2.2

/-- If the connection of a proxy has ended, all connections on which it has ever sent are over. -/
theorem proxy_over {t u : Spec.Ep.Trace} {s s₁ : Ep.State} (e₁ : Exec (Ep.step dg) Ep.init t s₁)
    (e : Exec (Ep.step dg) Ep.init (t ++ u) s) {p : Nat} (hp : (s₁.proxies p).alive = true)
    (hd : (s₁.conns (s₁.proxies p).conn).alive = false) {c : Nat} {m m' : Msg}
    (h : (.proxySend p m, .accepted c m') ∈ t ++ u) : ConnOver c (t ++ u) := by
  have h1 := proxy_sends e h
  obtain ⟨s₂, e₂, e₃⟩ := e.split
  cases exec_unique e₁ e₂
  have h2 := ((fed e₁).proxies p hp).1
  rw [← h1, (proxies_exec (proxy_lt (good_hist e₁).1.fresh hp) e₃).2.2]
  exact over_of_dead e (Nat.lt_of_lt_of_le h2 (connCount_le e₃)) (dead_exec h2 hd e₃)

end

section
open Rt Rt.Node Spec Spec.Ep Spec.Node Someip

/-- A message for an open stub is put into its channel, unless the socket is gone. -/
theorem right_stub {tr : Node.Trace} {s : Node.State} {x : Node.Action} {o : Node.Obs} {m : Msg} {a : Addr}
    {k i j : Nat} {id : InterfaceId} (e : Exec Node.step Node.init (tr ++ [(x, o)]) s)
    (ho : o.ep = some (.routed j m a)) (hk : Shown (app tr) (.serving k i id)) (hf : For m id)
    (hd : (.dropStub k, .none) ∉ app tr) : j = i ∨ Gone tr := by
  obtain ⟨s₁, e₁, hs⟩ := e.last
  obtain ⟨e2, _⟩ := parts e₁
  have hg := (Ep.good_hist e2).1
  obtain ⟨h1, h2, _, h3⟩ := (Ep.made e2).stub k i id hk
  have h4 := (stub_open e2 h1).resolve_right hd
  refine (stub_listens e₁ h4).imp (fun h5 => ?_) fun h => h
  have h6 := (Ep.fed e2).open_stub hg h4 h5
  rw [h2] at h6
  have h7 := hg.opens.shared i h6
  cases Node.move_of_step hs with
  | net => cases ho
  | app x ep o s' us out he hc =>
    cases ho
    have hm := Ep.move_of_step he
    generalize hx : Ep.Obs.routed j m a = o at hm
    cases hm <;> first | (cases hx; done) | (split at hx <;> cases hx) | cases hx
    rename_i c ms hrx hq hw
    have := hg.ids.sending c j m ms hw
    rw [For.of hf, ← h3, h7] at this
    cases this
    rfl

/-- Proxy `p` was cut off from its remote `r`: what C84 names has happened, and the connections on which the proxy
has sent are over. -/
def Spec.Node.CutOff (tr : Node.Trace) (p : Nat) (r : Addr) : Prop :=
  Cut tr r ∧ ∀ c m m', (.proxySend p m, .accepted c m') ∈ app tr → ConnOver c (app tr)

/-- An open proxy whose connection has ended. -/
def Rt.Node.Severed (s : Node.State) (p : Nat) : Prop :=
  (s.ep.proxies p).alive = true ∧ (s.ep.conns (s.ep.proxies p).conn).alive = false

/-- A message for an open proxy is dropped only if the connection of the proxy has ended. -/
theorem drop_proxy {tr : Node.Trace} {s s₁ : Node.State} {x : Node.Action} {o : Node.Obs} {m : Msg} {w : Ep.Drop}
    {r : Addr} {p i : Nat} {id : InterfaceId} (e₁ : Exec Node.step Node.init tr s₁) (hs : Node.step s₁ x = some (s, o))
    (ho : o.ep = some (.dropped m w)) (hp : Shown (app tr) (.proxying p i id r)) (hf : For m id)
    (hd : (.dropProxy p, .none) ∉ app tr) : Severed s₁ p := by
  obtain ⟨e2, _⟩ := parts e₁
  have hg := (Ep.good_hist e2).1
  obtain ⟨h1, h2, h3, _, h4⟩ := (Ep.made e2).proxy p i id r hp
  have h5 := (proxy_open e2 h1).resolve_right hd
  refine ⟨h5, Bool.eq_false_iff.mpr fun h6 => ?_⟩
  have h7 := (Ep.fed e2).open_proxy hg h5 h6
  rw [h2] at h7
  cases Node.move_of_step hs with
  | net => cases ho
  | app x ep o s' us out he hc =>
    cases ho
    exact (Ep.move_of_step he).not_open hg i (h4.trans (For.of hf).symm) h7

/-- A message for an open proxy is put into its channel, unless the connection of the proxy has
ended. -/
theorem right_proxy {tr : Node.Trace} {s s₁ : Node.State} {x : Node.Action} {o : Node.Obs} {m : Msg} {a r : Addr}
    {p i j : Nat} {id : InterfaceId} (e₁ : Exec Node.step Node.init tr s₁) (hs : Node.step s₁ x = some (s, o))
    (ho : o.ep = some (.routed j m a)) (hp : Shown (app tr) (.proxying p i id r)) (hf : For m id)
    (hd : (.dropProxy p, .none) ∉ app tr) : j = i ∨ Severed s₁ p := by
  obtain ⟨e2, _⟩ := parts e₁
  have hg := (Ep.good_hist e2).1
  obtain ⟨h1, h2, hr, _, h3⟩ := (Ep.made e2).proxy p i id r hp
  have h4 := (proxy_open e2 h1).resolve_right hd
  refine or_iff_not_imp_right.mpr fun h5 => ?_
  have h5 : (s₁.ep.conns (s₁.ep.proxies p).conn).alive = true := by
    rw [Severed, not_and, Bool.not_eq_false] at h5
    exact h5 h4
  have h6 := (Ep.fed e2).open_proxy hg h4 h5
  rw [h2] at h6
  have h7 := hg.opens.shared i h6
  cases Node.move_of_step hs with
  | net => cases ho
  | app x ep o s' us out he hc =>
    cases ho
    have hm := Ep.move_of_step he
    generalize hx : Ep.Obs.routed j m a = o at hm
    cases hm <;> first | (cases hx; done) | (split at hx <;> cases hx) | cases hx
    rename_i c ms hrx hq hw
    have := hg.ids.sending c j m ms hw
    rw [For.of hf, ← h3, h7] at this
    cases this
    rfl

theorem cut_mono {tr : Node.Trace} {a : Addr} (h : Cut tr a) (u : Node.Trace) : Cut (tr ++ u) a := by
  rcases h with ⟨c, h1, y, h2⟩ | ⟨d, d', h1, h2, h3⟩ | ⟨h1, h2⟩
  · rw [Cut, node_app_append]
    exact .inl ⟨c, h1.mono _, y, List.mem_append_left _ h2⟩
  · rw [Cut, socket_append]
    exact .inr (.inl ⟨d, d', h1, made_append h2 _, made_append h3 _⟩)
  · rw [Cut, Gone, node_app_append, socket_append]
    exact .inr (.inr ⟨List.mem_append_left _ h1, List.mem_append_left _ h2⟩)

theorem cut_off {t u : Node.Trace} {s s₁ : Node.State} (e₁ : Exec Node.step Node.init t s₁)
    (e : Exec Node.step Node.init (t ++ u) s) {p i : Nat} {id : InterfaceId} {r : Addr} (h : Severed s₁ p)
    (hp : Shown (app t) (.proxying p i id r)) : CutOff (t ++ u) p r := by
  have h1 := ((Ep.made (parts e₁).1).proxy p i id r hp).2.2.1
  refine ⟨?_, fun c m m' h2 => ?_⟩
  · have := proxy_cut e₁ h.1
    rw [h.2, h1] at this
    exact cut_mono (this.resolve_left (by simp)) u
  · have e2 := (parts e).1
    rw [node_app_append] at h2 e2 ⊢
    exact proxy_over (parts e₁).1 e2 h.1 h.2 h2

variable {r : Node.Run}

/-- Where a message was dealt with. -/
theorem settled_at {t u c : Nat} {a : Addr} {m : Msg} {q : List Msg} (h : t ≤ u)
    (hc : Shown (app (r.hist u)) (.opened c a))
    (hq : settled c (app (r.hist u)) = settled c (app (r.hist t)) ++ q) (hm : m ∈ q) :
    ∃ s₁ x o s₂ st, r.hist u = r.hist t ++ s₁ ++ (x, o) :: s₂ ∧
      Exec Node.step Node.init (r.hist t ++ s₁ ++ [(x, o)]) st ∧
      ((∃ w, o.ep = some (.dropped m w)) ∨
        ∃ j, o.ep = some (.routed j m a) ∧ (m, a) ∈ routedTo j (app [(x, o)])) := by
  obtain ⟨s, h1, -⟩ := r.segment h
  have hq' := hq
  rw [h1, node_app_append, settled_append, List.append_cancel_left_eq] at hq'
  rw [← hq', settled, List.mem_filterMap] at hm
  obtain ⟨⟨y, w⟩, h2, h3⟩ := hm
  obtain ⟨o, s₁, s₂, rfl, h4⟩ := mem_app h2
  have e := r.exec u
  have h1' : r.hist u = (r.hist t ++ s₁ ++ [(.app y, o)]) ++ s₂ := by rw [h1]; simp
  rw [h1'] at e
  obtain ⟨st, e1, -⟩ := e.split
  refine ⟨s₁, .app y, o, s₂, st, by rw [h1]; simp, e1, ?_⟩
  split at h3
  · rename_i d j m' b h5
    cases h5
    split at h3
    · rename_i h6
      subst h6
      cases h3
      obtain ⟨st', e2, hs⟩ := e1.last
      have h7 : b = a := by
        cases Node.move_of_step hs with
        | net _ u v w ha => exact absurd rfl (ha _)
        | app _ ep o _ us out he hc' =>
          cases h4
          have e3 := (parts e2).1
          obtain ⟨hg, hh⟩ := Ep.good_hist e3
          have h9 : b = (st'.ep.conns d).addr ∧ d < st'.ep.connCount := by
            have hm := Ep.move_of_step he
            generalize hx : Ep.Obs.routed j m b = o at hm
            cases hm <;> first | (cases hx; done) | cases hx
            rename_i ms hrx hq hw
            refine ⟨rfl, Nat.lt_of_not_le fun h => ?_⟩
            rw [hg.fresh.conns d h] at hw
            cases hw
          have h8 := hh.conns d h9.2
          rw [h9.1]
          refine opened_unique (r.exec u) ?_ hc
          rw [h1', List.append_assoc, node_app_append]
          exact h8.mono _
      subst h7
      exact .inr ⟨j, h4, by simp [routedTo, app, h4]⟩
    · cases h3
  · rename_i d m' w' h5
    cases h5
    split at h3
    · cases h3
      exact .inl ⟨_, h4⟩
    · cases h3
  · cases h3

theorem fair_stubRecv {k : Nat} (hf : r.FairTo (· = .app (.stubRecv k))) :
    (epRun r).FairTo (· = .stubRecv k) := by
  refine fair_app hf (fun y hy => ⟨_, hy, rfl⟩) ?_
  rintro n ⟨a, o, s', rfl, h⟩
  obtain ⟨s1, w, h1⟩ := can_still h rfl
  exact ⟨_, w, s1, rfl, h1⟩

theorem fair_proxyRecv {p : Nat} (hf : r.FairTo (· = .app (.proxyRecv p))) :
    (epRun r).FairTo (· = .proxyRecv p) := by
  refine fair_app hf (fun y hy => ⟨_, hy, rfl⟩) ?_
  rintro n ⟨a, o, s', rfl, h⟩
  obtain ⟨s1, w, h1⟩ := can_still h rfl
  exact ⟨_, w, s1, rfl, h1⟩

/-- A message for an open stub that is dealt with after `t` is returned after `t`. -/
theorem settled_returned (hf : Node.Fair r) (hr : Node.Read r) (hb : Node.Settles r) {k i t u c : Nat}
    {id : InterfaceId} {a : Addr} {m : Msg} {q : List Msg} (hg : r.FairTo (· = .app (.stubRecv k)))
    (hk : Shown (app (r.hist t)) (.serving k i id)) (hm : For m id) (h : t ≤ u)
    (hc : Shown (app (r.hist u)) (.opened c a))
    (hq : settled c (app (r.hist u)) = settled c (app (r.hist t)) ++ q) (hmq : m ∈ q) :
    ∃ v, t ≤ v ∧ ((.dropStub k, .none) ∈ app (r.hist v) ∨ (.failure, .none) ∈ socket (r.hist v) ∨
      ∃ q, stubGot k (app (r.hist v)) = stubGot k (app (r.hist t)) ++ q ∧ (m, a) ∈ q) := by
  by_cases hd : (.dropStub k, .none) ∈ app (r.hist u)
  · exact ⟨u, h, .inl hd⟩
  obtain ⟨s₁, x, o, s₂, st, h1, e, h2⟩ := settled_at h hc hq hmq
  have hd' : (.dropStub k, .none) ∉ app (r.hist t ++ s₁) := by
    intro h3
    refine hd ?_
    rw [h1, node_app_append]
    exact List.mem_append_left _ h3
  have hk' : Shown (app (r.hist t ++ s₁)) (.serving k i id) := by
    rw [node_app_append]
    exact hk.mono _
  have gone : Gone (r.hist t ++ s₁) → (.failure, .none) ∈ socket (r.hist u) := by
    intro h3
    rw [h1, socket_append]
    exact List.mem_append_left _ h3.2
  rcases h2 with ⟨w, h2⟩ | ⟨j, h2, h3⟩
  · exact ⟨u, h, .inr (.inl (gone (C84_stub e h2 hk' hm hd')))⟩
  rcases right_stub e h2 hk' hm hd' with rfl | h4
  swap
  · exact ⟨u, h, .inr (.inl (gone h4))⟩
  obtain ⟨v, h4, h5⟩ := C133_stub (r := epRun r) (k := k) (i := j) (n := u) (id := id) (fair_stubRecv hg)
    (fun N => by
      have := C126_calls_partial hf hr hb k N
      simpa only [epRun_hist] using this)
    (by
      rw [epRun_hist, h1, node_app_append]
      exact hk'.mono _)
  rw [epRun_hist, epRun_hist] at h5
  refine ⟨v, by omega, h5.imp (fun h => h) fun h5 => .inr ?_⟩
  obtain ⟨z, h6⟩ := C56_stub (parts (r.exec t)).1 hk
  obtain ⟨s, h7, -⟩ := r.segment (show t ≤ v by omega)
  refine ⟨stubGot k (app s), by rw [h7, node_app_append, stubGot_append], ?_⟩
  have h8 : routedTo j (app (r.hist u)) = stubGot k (app (r.hist t)) ++ (z ++ (routedTo j (app s₁) ++
      (routedTo j (app [(x, o)]) ++ routedTo j (app s₂)))) := by
    rw [h1, ← List.singleton_append, node_app_append, node_app_append, node_app_append, routedTo_append,
      routedTo_append, routedTo_append, ← h6]
    simp
  rw [h8, h7, node_app_append, stubGot_append, List.prefix_append_right_inj] at h5
  exact h5.subset (by simp [h3])

/-- A message for an open proxy from its remote that is dealt with after `t` is returned after `t`. -/
theorem settled_replied {p i t u c : Nat} {id : InterfaceId} {a : Addr} {m : Msg} {q : List Msg}
    (hg : r.FairTo (· = .app (.proxyRecv p))) (hp : Shown (app (r.hist t)) (.proxying p i id a)) (hm : For m id)
    (h : t ≤ u) (hc : Shown (app (r.hist u)) (.opened c a))
    (hq : settled c (app (r.hist u)) = settled c (app (r.hist t)) ++ q) (hmq : m ∈ q) :
    ∃ v, t ≤ v ∧ ((.dropProxy p, .none) ∈ app (r.hist v) ∨ CutOff (r.hist v) p a ∨
      ∃ q, proxyGot p (app (r.hist v)) = proxyGot p (app (r.hist t)) ++ q ∧ m ∈ q) := by
  by_cases hd : (.dropProxy p, .none) ∈ app (r.hist u)
  · exact ⟨u, h, .inl hd⟩
  obtain ⟨s₁, x, o, s₂, st, h1, e, h2⟩ := settled_at h hc hq hmq
  have hd' : (.dropProxy p, .none) ∉ app (r.hist t ++ s₁) := by
    intro h3
    refine hd ?_
    rw [h1, node_app_append]
    exact List.mem_append_left _ h3
  have hp' : Shown (app (r.hist t ++ s₁)) (.proxying p i id a) := by
    rw [node_app_append]
    exact hp.mono _
  obtain ⟨st₁, e₁, hs⟩ := e.last
  have cut : Severed st₁ p → CutOff (r.hist u) p a := by
    intro h3
    have e₂ := r.exec u
    rw [h1] at e₂ ⊢
    exact cut_off e₁ e₂ h3 hp'
  rcases h2 with ⟨w, h2⟩ | ⟨j, h2, h3⟩
  · exact ⟨u, h, .inr (.inl (cut (drop_proxy e₁ hs h2 hp' hm hd')))⟩
  rcases right_proxy e₁ hs h2 hp' hm hd' with rfl | h4
  swap
  · exact ⟨u, h, .inr (.inl (cut h4))⟩
  obtain ⟨v, h4, h5⟩ := C133_proxy (r := epRun r) (p := p) (i := j) (n := u) (id := id) (a := a)
    (fair_proxyRecv hg) (by
      rw [epRun_hist, h1, node_app_append]
      exact hp'.mono _)
  rw [epRun_hist, epRun_hist] at h5
  refine ⟨v, by omega, h5.imp (fun h => h) fun h5 => .inr ?_⟩
  obtain ⟨z, h6⟩ := C55_remote (parts (r.exec t)).1 hp
  obtain ⟨s, h7, -⟩ := r.segment (show t ≤ v by omega)
  have hgot : ∀ t u, proxyGot p (t ++ u) = proxyGot p t ++ proxyGot p u := fun t u => by
    simp only [proxyGot, List.filterMap_append]
  refine ⟨proxyGot p (app s), by rw [h7, node_app_append, hgot], ?_⟩
  rw [h1, ← List.singleton_append, node_app_append, node_app_append, node_app_append, routedTo_append,
    routedTo_append, routedTo_append] at h5
  simp only [List.filter_append, List.map_append] at h5
  rw [← h6, h7, node_app_append, hgot] at h5
  simp only [List.append_assoc, List.prefix_append_right_inj] at h5
  refine h5.subset ?_
  simp only [List.mem_append]
  refine .inr (.inr (.inl (List.mem_map.mpr ⟨(m, a), List.mem_filter.mpr ⟨h3, by simp⟩, rfl⟩)))

end

section
open Rt Rt.Net Spec Spec.Ep Spec.Net Someip
open Spec.Node (SendStep Mishap CutOff app socket)

variable {own : Addr → Bool} {r : Run own}

/-- **C133.** A message that the program at `a` sends to `n`, where a stub serves its interface, is returned by
that stub, as message from `a`, if in addition to what C132 asks for, the user of the stub calls `recv_from`
again and again; unless the sending connection was closed before, the stub was dropped, the socket at `n` has
failed or shows what became of the datagram. -/
theorem C133_request {a n : Addr} {c t k i : Nat} {id : InterfaceId} {m : Msg} {x : Rt.Ep.Action} {o : Node.Obs}
    (ha : own a = true) (hn : own n = true) (hs : r.FairTo (At a (SendStep c))) (hf : Fair r n) (hr : Read r n)
    (hb : Settles r n) (hw : Carries r a n) (hg : r.FairTo (At n (· = .app (.stubRecv k))))
    (hc : Shown (app (at_ a (r.hist t))) (.opened c n)) (hk : Shown (app (at_ n (r.hist t))) (.serving k i id))
    (h : r.act t = some ((a, .app x), o)) (ho : o.ep = some (.accepted c m)) (hl : 16 + m.payload.length ≤ 1400)
    (hm : Normal m) (hi : For m id) :
    ∃ u, t ≤ u ∧ (ConnOver c (app (at_ a (r.hist u))) ∨ (.failure, .none) ∈ socket (at_ n (r.hist u)) ∨
      Mishap a (frame m) (socket (at_ n (r.hist t))) (socket (at_ n (r.hist u))) ∨
      (.dropStub k, .none) ∈ app (at_ n (r.hist u)) ∨
      ∃ q, stubGot k (app (at_ n (r.hist u))) = stubGot k (app (at_ n (r.hist t))) ++ q ∧ (m, a) ∈ q) := by
  obtain ⟨u, h1, h2 | h2 | h2 | ⟨c', q, h2, h3, m', h4, -, h5⟩⟩ :=
    C132_delivered ha hn hs hf hr hb hw hc h ho hl
  · exact ⟨u, h1, .inl h2⟩
  · exact ⟨u, h1, .inr (.inl h2)⟩
  · exact ⟨u, h1, .inr (.inr (.inl h2))⟩
  · rw [h5 hm] at h4
    rw [← nodeRun_hist] at hk
    simp only [← nodeRun_hist r n] at h2 h3
    obtain ⟨v, h6, h7⟩ := settled_returned (fair_node hf hn) (read_node hr) (settles_node hb)
      (node_fair hn (by rintro a p h; cases h) hg) hk hi h1 h2 h3 h4
    simp only [nodeRun_hist r n] at h7
    refine ⟨v, h6, ?_⟩
    rcases h7 with h7 | h7 | h7
    · exact .inr (.inr (.inr (.inl h7)))
    · exact .inr (.inl h7)
    · exact .inr (.inr (.inr (.inr h7)))

/-- **C133.** A message that the program at `a` sends to `n`, where a proxy for its interface and for `a` was
made, is returned by that proxy, if in addition to what C132 asks for, the user of the proxy calls `recv` again
and again; unless the sending connection was closed before, the proxy was dropped or cut off from its remote
(C84), the socket at `n` has failed or shows what became of the datagram. -/
theorem C133_reply {a n : Addr} {c t p i : Nat} {id : InterfaceId} {m : Msg} {x : Rt.Ep.Action} {o : Node.Obs}
    (ha : own a = true) (hn : own n = true) (hs : r.FairTo (At a (SendStep c))) (hf : Fair r n) (hr : Read r n)
    (hb : Settles r n) (hw : Carries r a n) (hg : r.FairTo (At n (· = .app (.proxyRecv p))))
    (hc : Shown (app (at_ a (r.hist t))) (.opened c n)) (hp : Shown (app (at_ n (r.hist t))) (.proxying p i id a))
    (h : r.act t = some ((a, .app x), o)) (ho : o.ep = some (.accepted c m)) (hl : 16 + m.payload.length ≤ 1400)
    (hm : Normal m) (hi : For m id) :
    ∃ u, t ≤ u ∧ (ConnOver c (app (at_ a (r.hist u))) ∨ (.failure, .none) ∈ socket (at_ n (r.hist u)) ∨
      Mishap a (frame m) (socket (at_ n (r.hist t))) (socket (at_ n (r.hist u))) ∨
      (.dropProxy p, .none) ∈ app (at_ n (r.hist u)) ∨
      CutOff (at_ n (r.hist u)) p a ∨
      ∃ q, proxyGot p (app (at_ n (r.hist u))) = proxyGot p (app (at_ n (r.hist t))) ++ q ∧ m ∈ q) := by
  obtain ⟨u, h1, h2 | h2 | h2 | ⟨c', q, h2, h3, m', h4, -, h5⟩⟩ :=
    C132_delivered ha hn hs hf hr hb hw hc h ho hl
  · exact ⟨u, h1, .inl h2⟩
  · exact ⟨u, h1, .inr (.inl h2)⟩
  · exact ⟨u, h1, .inr (.inr (.inl h2))⟩
  · rw [h5 hm] at h4
    rw [← nodeRun_hist] at hp
    simp only [← nodeRun_hist r n] at h2 h3
    obtain ⟨v, h6, h7⟩ := settled_replied (node_fair hn (by rintro a p h; cases h) hg) hp hi h1 h2 h3 h4
    simp only [nodeRun_hist r n] at h7
    exact ⟨v, h6, .inr (.inr (.inr h7))⟩

/-! ### A conversation -/

/-- The request arrives once; the stub returns it and answers; the proxy returns the answer. -/
def Spec.Net.talk : List Action := once ++ Spec.Net.dialogue.drop 33 ++ [(5, .app (.proxyRecv 0))]

/-- A run in which nobody is passed over and nothing is lost. -/
theorem udp_talk : ∃ r : Run two, (∀ n, two n = true → Fair r n ∧ Read r n ∧ Settles r n) ∧ Carries r 5 6 ∧
    Carries r 6 5 ∧
    (∀ n, two n = true → (∀ k, r.FairTo (At n (· = .app (.stubRecv k)))) ∧
      (∀ p, r.FairTo (At n (· = .app (.proxyRecv p)))) ∧
      ∀ k N, ∃ t, N ≤ t ∧ inCall k (app (at_ n (r.hist t))) = false) ∧
    (∃ t o, Shown (app (at_ 5 (r.hist t))) (.opened 0 6) ∧ Shown (app (at_ 6 (r.hist t))) (.serving 0 0 ⟨1, 1⟩) ∧
      r.act t = some ((5, .app (.proxySend 0 Ep.msgA)), o) ∧ o.ep = some (.accepted 0 Ep.msgA) ∧
      stubGot 0 (app (at_ 6 (r.hist t))) = []) ∧
    (∃ t o, Shown (app (at_ 6 (r.hist t))) (.opened 0 5) ∧
      Shown (app (at_ 5 (r.hist t))) (.proxying 0 0 ⟨1, 1⟩ 6) ∧
      r.act t = some ((6, .app (.stubStep 0)), o) ∧ o.ep = some (.accepted 0 answerA) ∧
      proxyGot 0 (app (at_ 5 (r.hist t))) = []) ∧
    (Normal Ep.msgA ∧ For Ep.msgA ⟨1, 1⟩ ∧ Normal answerA ∧ For answerA ⟨1, 1⟩) ∧
    ∃ t, stubGot 0 (app (at_ 6 (r.hist t))) = [(Ep.msgA, 5)] ∧ proxyGot 0 (app (at_ 5 (r.hist t))) = [answerA] := by
  obtain ⟨tr, s, e, h⟩ := exec_by (step := step two) (s := init) talk
    (fun (tr : Spec.Net.Trace) s => calmNode (s.nodes 5) && calmNode (s.nodes 6) && allArrive 5 6 tr &&
      allArrive 6 5 tr && decide (
      (∀ n ∈ ([5, 6] : List Addr), (∀ k, k < (s.nodes n).ep.stubCount →
        ((s.nodes n).ep.ifaces ((s.nodes n).ep.stubs k).iface).queue.length < 16 ∧
          ((s.nodes n).ep.stubs k).pc = .idle) ∧
        ∀ k, k < (s.nodes n).ep.proxyCount →
        ((s.nodes n).ep.ifaces ((s.nodes n).ep.proxies k).iface).queue.length < 16) ∧
      tr[15]? = some ((5, Node.Action.app (.proxySend 0 Ep.msgA)),
        (⟨some (.accepted 0 Ep.msgA), [], []⟩ : Node.Obs)) ∧
      (app (at_ 5 (tr.take 15))).any (fun x => decide (x.2 = .opened 0 6)) = true ∧
      (app (at_ 6 (tr.take 15))).any (fun x => decide (x.2 = .serving 0 0 ⟨1, 1⟩)) = true ∧
      stubGot 0 (app (at_ 6 (tr.take 15))) = [] ∧
      tr[33]? = some ((6, Node.Action.app (.stubStep 0)),
        (⟨some (.accepted 0 answerA), [], []⟩ : Node.Obs)) ∧
      (app (at_ 6 (tr.take 33))).any (fun x => decide (x.2 = .opened 0 5)) = true ∧
      (app (at_ 5 (tr.take 33))).any (fun x => decide (x.2 = .proxying 0 0 ⟨1, 1⟩ 6)) = true ∧
      proxyGot 0 (app (at_ 5 (tr.take 33))) = [] ∧
      stubGot 0 (app (at_ 6 tr)) = [(Ep.msgA, 5)] ∧ proxyGot 0 (app (at_ 5 tr)) = [answerA]))
    (by decide +kernel)
  simp only [Bool.and_eq_true, decide_eq_true_eq] at h
  obtain ⟨⟨⟨⟨g1, g2⟩, g3⟩, g4⟩, g5, g6, g7, g8, g9, g10, g11, g12, g13, g14, g15⟩ := h
  have hg := fun n => (Rt.Ep.good_hist (Node.parts ((each e).1 n)).1).1
  have k5 := calm_still (hg 5) g1
  have k6 := calm_still (hg 6) g2
  have hown : ∀ n, two n = true → n = 5 ∨ n = 6 := fun n hn => by
    simpa only [two, Bool.or_eq_true, decide_eq_true_eq] using hn
  obtain ⟨r, r1, r2, r4, r3⟩ := udp_net_rests e (fun n hn => by
    rcases hown n hn with rfl | rfl
    · exact k5.1
    · exact k6.1)
  have shown : ∀ {tr : Spec.Ep.Trace} {w : Rt.Ep.Obs}, tr.any (fun x => decide (x.2 = w)) = true → Shown tr w := by
    intro tr w h
    obtain ⟨⟨y, w'⟩, h9, h10⟩ := List.any_eq_true.mp h
    simp only [decide_eq_true_eq] at h10
    exact ⟨y, by rw [← h10]; exact h9⟩
  refine ⟨r, fun n hn => ⟨r1 n hn, ⟨fun k N => ⟨max N tr.length, Nat.le_max_left .., ?_⟩,
    fun p N => ⟨max N tr.length, Nat.le_max_left .., ?_⟩⟩, r2 n⟩, rest_carries r3 g3, rest_carries r3 g4,
    fun n hn => ⟨fun k => r4 n hn _ ?_, fun p => r4 n hn _ ?_, fun k N => ⟨max N tr.length, Nat.le_max_left .., ?_⟩⟩,
    ?_, ?_, by unfold Normal For; decide,
    tr.length, by rw [(r3 _ (Nat.le_refl _)).2]; exact ⟨g14, g15⟩⟩
  · rw [(r3 _ (Nat.le_max_right ..)).1]
    exact fun hk => (g5 n (by rcases hown n hn with rfl | rfl <;> simp)).1 k (Rt.Ep.stub_lt (hg n).fresh hk) |>.1
  · rw [(r3 _ (Nat.le_max_right ..)).1]
    exact fun hk => (g5 n (by rcases hown n hn with rfl | rfl <;> simp)).2 p (Rt.Ep.proxy_lt (hg n).fresh hk)
  · rintro x rfl
    rcases hown n hn with rfl | rfl
    · exact k5.2.1 k
    · exact k6.2.1 k
  · rintro x rfl
    rcases hown n hn with rfl | rfl
    · exact k5.2.2 p
    · exact k6.2.2 p
  · rw [(r3 _ (Nat.le_max_right ..)).2]
    refine (Rt.Ep.idle_iff (Node.parts ((each e).1 n)).1 k).mp ?_
    rcases Nat.lt_or_ge k (s.nodes n).ep.stubCount with h | h
    · exact ((g5 n (by rcases hown n hn with rfl | rfl <;> simp)).1 k h).2
    · rw [(hg n).fresh.stubs k h]
  · obtain ⟨j, h7, h8⟩ := rest_act r3 g6
    exact ⟨j, _, by rw [h7]; exact shown g7, by rw [h7]; exact shown g8, h8, rfl, by rw [h7]; exact g9⟩
  · obtain ⟨j, h7, h8⟩ := rest_act r3 g10
    exact ⟨j, _, by rw [h7]; exact shown g11, by rw [h7]; exact shown g12, h8, rfl, by rw [h7]; exact g13⟩

end

end Rsomeip
