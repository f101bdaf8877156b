import Verif.Props.Rt.Home
import Verif.Props.Rt.LiveHandle
import Verif.Props.Rt.LiveTcpNet
import Verif.Props.Rt.TcpOpen

/-! # C134: in the long run a handle returns what is read for it, on whatever socket, and over TCP -/

namespace Rsomeip

section
open Rt Rt.Ep Spec Spec.Ep Someip

/-- `Home` for a history in which the connection is registered as soon as it is accepted. -/
theorem home_at {tr : Trace} {l c : Nat} {a : Addr} (p : Nat)
    (h : tr = tr.take p ++ (.accept l a, .opened c a) :: (.lisShare l, .none) :: tr.drop (p + 2))
    (h1 : ((tr.take p ++ tr.drop (p + 2)).all fun x => match x.1 with | .accept _ b => b != a | _ => true) = true)
    (h2 : ((tr.take p).all fun x => match x.1 with | .stubSend _ b _ => b != a | _ => true) = true) :
    Home tr l c a := by
  rw [h]
  exact home_of (u := []) rfl (by rw [List.append_nil]; exact h1) (by rw [List.append_nil]; exact h2)

variable {dg : Bool} {r : Run dg}

/-- Reading from or writing to a connection to `a` has failed, and proxy `p` has sent on no other connection. -/
def Spec.Ep.Severed (p : Nat) (a : Addr) (tr : Trace) : Prop :=
  ∃ d, Shown tr (.opened d a) ∧ (∃ x ∈ tr, x.1 = .packet d .closed ∨ x.1 = .sent d false) ∧
    ∀ c m m', (.proxySend p m, .accepted c m') ∈ tr → c = d

/-- Where a message was dealt with. -/
theorem dealt_at {t u c : Nat} {a : Addr} {m : Msg} {q : List Msg} (h : t ≤ u)
    (hc : Shown (r.hist u) (.opened c a)) (hq : settled c (r.hist u) = settled c (r.hist t) ++ q) (hm : m ∈ q) :
    ∃ s₁ x o s₂ st st', r.hist u = r.hist t ++ s₁ ++ (x, o) :: s₂ ∧
      Exec (step dg) init (r.hist t ++ s₁) st ∧ step dg st x = some (st', o) ∧
      ((∃ w, o = .dropped m w) ∨ ∃ j, o = .routed j m a ∧ (m, a) ∈ routedTo j [(x, o)]) := by
  obtain ⟨s, h1, -⟩ := r.segment h
  have hq' := hq
  rw [h1, settled_append, List.append_cancel_left_eq] at hq'
  rw [← hq', settled, List.mem_filterMap] at hm
  obtain ⟨⟨y, w⟩, h2, h3⟩ := hm
  obtain ⟨s₁, s₂, rfl⟩ := List.append_of_mem h2
  have e := r.exec u
  have h1' : r.hist u = (r.hist t ++ s₁ ++ [(y, w)]) ++ s₂ := by rw [h1]; simp
  rw [h1'] at e
  obtain ⟨st', e1, -⟩ := e.split
  obtain ⟨st, e2, hs⟩ := e1.last
  refine ⟨s₁, y, w, s₂, st, st', by rw [h1]; simp, e2, hs, ?_⟩
  split at h3
  · rename_i d j m' b h5
    cases h5
    split at h3
    · rename_i h6
      subst h6
      cases h3
      have hg := (good_hist e2).1
      have h9 : b = (st.conns d).addr ∧ d < st.connCount := by
        have hm := move_of_step hs
        generalize hx : Obs.routed j m b = o at hm
        cases hm <;> first | (cases hx; done) | cases hx
        rename_i ms hrx hq hw
        refine ⟨rfl, Nat.lt_of_not_le fun h => ?_⟩
        rw [hg.fresh.conns d h] at hw
        cases hw
      have h7 : b = a := by
        have h8 := (good_hist e2).2.conns d h9.2
        rw [h9.1]
        have h10 := (opened_addr (r.exec u) hc).2
        have h11 := (opened_addr (r.exec u) (c := d) (a := (st.conns d).addr) (by
          rw [h1', List.append_assoc]
          exact h8.mono _)).2
        exact h11.symm.trans h10
      subst h7
      exact .inr ⟨j, rfl, by simp [routedTo]⟩
    · cases h3
  · rename_i d m' w' h5
    cases h5
    split at h3
    · cases h3
      exact .inl ⟨_, rfl⟩
    · cases h3
  · cases h3

/-- A message for an open stub is put into its channel, unless its listener has failed. -/
theorem stub_gets {tr : Trace} {s s' : State} {x : Action} {o : Obs} {m : Msg} {k i : Nat} {id : InterfaceId}
    (e : Exec (step dg) init tr s) (hs : step dg s x = some (s', o)) (hk : Shown tr (.serving k i id))
    (hf : For m id) (hd : (.dropStub k, .none) ∉ tr) (hl : ∀ l, (.acceptNone l, .ended) ∉ tr) :
    (∀ w, o ≠ .dropped m w) ∧ ∀ j a, o = .routed j m a → j = i := by
  have hg := (good_hist e).1
  obtain ⟨h1, h2, _, h3⟩ := (made e).stub k i id hk
  have h4 := (stub_open e h1).resolve_right hd
  have h5 := (lis_lasts e h4).resolve_right (hl _)
  have h6 := (fed e).open_stub hg h4 h5
  rw [h2] at h6
  have hm := move_of_step hs
  refine ⟨?_, ?_⟩
  · rintro w rfl
    exact hm.not_open hg i (h3.trans (For.of hf).symm) h6
  · intro j a ho
    have h7 := hg.opens.shared i h6
    generalize hx : o = o' at hm
    subst ho
    cases hm <;> first | (cases hx; done) | (split at hx <;> cases hx) | cases hx
    rename_i c ms hrx hq hw
    have := hg.ids.sending c j m ms hw
    rw [For.of hf, ← h3, h7] at this
    cases this
    rfl

/-- A message for an open proxy is put into its channel, unless its connection has ended. -/
theorem proxy_gets {tr : Trace} {s s' : State} {x : Action} {o : Obs} {m : Msg} {p i : Nat} {id : InterfaceId}
    {b : Addr} (e : Exec (step dg) init tr s) (hs : step dg s x = some (s', o)) (hp : Shown tr (.proxying p i id b))
    (hf : For m id) (hd : (.dropProxy p, .none) ∉ tr)
    (hl : (s.conns (s.proxies p).conn).alive = true) :
    (∀ w, o ≠ .dropped m w) ∧ ∀ j a, o = .routed j m a → j = i := by
  have hg := (good_hist e).1
  obtain ⟨h1, h2, _, _, h3⟩ := (made e).proxy p i id b hp
  have h4 := (proxy_open e h1).resolve_right hd
  have h6 := (fed e).open_proxy hg h4 hl
  rw [h2] at h6
  have hm := move_of_step hs
  refine ⟨?_, ?_⟩
  · rintro w rfl
    exact hm.not_open hg i (h3.trans (For.of hf).symm) h6
  · intro j a ho
    have h7 := hg.opens.shared i h6
    generalize hx : o = o' at hm
    subst ho
    cases hm <;> first | (cases hx; done) | (split at hx <;> cases hx) | cases hx
    rename_i c ms hrx hq hw
    have := hg.ids.sending c j m ms hw
    rw [For.of hf, ← h3, h7] at this
    cases this
    rfl

/-- A message for an open stub that is dealt with after `t` is returned after `t`. -/
theorem dealt_returned {k i t u c : Nat} {id : InterfaceId} {a : Addr} {m : Msg} {q : List Msg}
    (hg : r.FairTo (· = .stubRecv k)) (hi : ∀ N, ∃ m, N ≤ m ∧ inCall k (r.hist m) = false)
    (hk : Shown (r.hist t) (.serving k i id)) (hm : For m id) (h : t ≤ u)
    (hc : Shown (r.hist u) (.opened c a))
    (hq : settled c (r.hist u) = settled c (r.hist t) ++ q) (hmq : m ∈ q) :
    ∃ v, t ≤ v ∧ ((.dropStub k, .none) ∈ r.hist v ∨ (∃ l, (.acceptNone l, .ended) ∈ r.hist v) ∨
      ∃ q, stubGot k (r.hist v) = stubGot k (r.hist t) ++ q ∧ (m, a) ∈ q) := by
  by_cases hd : (.dropStub k, .none) ∈ r.hist u
  · exact ⟨u, h, .inl hd⟩
  by_cases hl : ∃ l, (.acceptNone l, .ended) ∈ r.hist u
  · exact ⟨u, h, .inr (.inl hl)⟩
  obtain ⟨s₁, x, o, s₂, st, st', h1, e, hs, h2⟩ := dealt_at h hc hq hmq
  have hk' : Shown (r.hist t ++ s₁) (.serving k i id) := hk.mono _
  have h3 := stub_gets e hs hk' hm
    (fun h3 => hd (by rw [h1]; exact List.mem_append_left _ h3))
    (fun l h3 => hl ⟨l, by rw [h1]; exact List.mem_append_left _ h3⟩)
  obtain ⟨j, h4, h5⟩ := h2.resolve_left fun ⟨w, h4⟩ => h3.1 w h4
  obtain rfl := h3.2 j a h4
  obtain ⟨v, h6, h7⟩ := C133_stub (n := u) hg hi (by rw [h1]; exact hk'.mono _)
  refine ⟨v, by omega, h7.imp (fun h => h) fun h7 => .inr ?_⟩
  obtain ⟨z, h8⟩ := C56_stub (r.exec t) hk
  obtain ⟨w, h9, -⟩ := r.segment (show t ≤ v by omega)
  refine ⟨stubGot k w, by rw [h9, stubGot_append], ?_⟩
  have h10 : routedTo j (r.hist u) = stubGot k (r.hist t) ++ (z ++ (routedTo j s₁ ++
      (routedTo j [(x, o)] ++ routedTo j s₂))) := by
    rw [h1, ← List.singleton_append, routedTo_append, routedTo_append, routedTo_append, ← h8]
    simp
  rw [h10, h9, stubGot_append, List.prefix_append_right_inj] at h7
  exact h7.subset (by simp [h5])

/-- A message for an open proxy from its remote that is dealt with after `t` is returned after `t`. -/
theorem dealt_replied {p i t u c : Nat} {id : InterfaceId} {a : Addr} {m : Msg} {q : List Msg}
    (hg : r.FairTo (· = .proxyRecv p)) (hp : Shown (r.hist t) (.proxying p i id a)) (hm : For m id) (h : t ≤ u)
    (hc : Shown (r.hist u) (.opened c a))
    (hq : settled c (r.hist u) = settled c (r.hist t) ++ q) (hmq : m ∈ q) :
    ∃ v, t ≤ v ∧ ((.dropProxy p, .none) ∈ r.hist v ∨
      Severed p a (r.hist v) ∨
      ∃ q, proxyGot p (r.hist v) = proxyGot p (r.hist t) ++ q ∧ m ∈ q) := by
  by_cases hd : (.dropProxy p, .none) ∈ r.hist u
  · exact ⟨u, h, .inl hd⟩
  obtain ⟨s₁, x, o, s₂, st, st', h1, e, hs, h2⟩ := dealt_at h hc hq hmq
  have hp' : Shown (r.hist t ++ s₁) (.proxying p i id a) := hp.mono _
  have hd' : (.dropProxy p, .none) ∉ r.hist t ++ s₁ :=
    fun h3 => hd (by rw [h1]; exact List.mem_append_left _ h3)
  cases hl : (st.conns (st.proxies p).conn).alive with
  | false =>
    obtain ⟨g1, -, g2, -⟩ := (made e).proxy p i id a hp'
    have g3 := (proxy_open e g1).resolve_right hd'
    have g4 := ((fed e).proxies p g3).1
    have g5 := (good_hist e).2.conns _ g4
    rw [((peers e).proxies p g1).2, g2] at g5
    refine ⟨u, h, .inr (.inl ?_)⟩
    have e' := r.exec u
    rw [h1] at e' ⊢
    refine ⟨(st.proxies p).conn, g5.mono _, ?_, fun c m m' hs => ?_⟩
    rotate_left
    · rw [← proxy_sends e' hs]
      obtain ⟨st₁, e₁, e₂⟩ := e'.split
      cases exec_unique e e₁
      exact (proxies_exec g1 e₂).2.2
    suffices ∃ x ∈ r.hist t ++ s₁, x.1 = .packet (st.proxies p).conn .closed ∨
        x.1 = .sent (st.proxies p).conn false by
      obtain ⟨x, h2, h3⟩ := this
      exact ⟨x, List.mem_append_left _ h2, h3⟩
    apply Decidable.byContradiction
    intro hn
    rw [conn_lasts e (.inr (.inr (.inr ⟨p, g3, rfl⟩))) fun x hx =>
      ⟨fun hc => hn ⟨x, hx, .inl hc⟩, fun hc => hn ⟨x, hx, .inr hc⟩⟩] at hl
    cases hl
  | true =>
    have h3 := proxy_gets e hs hp' hm hd' hl
    obtain ⟨j, h4, h5⟩ := h2.resolve_left fun ⟨w, h4⟩ => h3.1 w h4
    obtain rfl := h3.2 j a h4
    obtain ⟨v, h6, h7⟩ := C133_proxy (n := u) hg (by rw [h1]; exact hp'.mono _)
    refine ⟨v, by omega, h7.imp (fun h => h) fun h7 => .inr ?_⟩
    obtain ⟨z, h8⟩ := C55_remote (r.exec t) hp
    obtain ⟨w, h9, -⟩ := r.segment (show t ≤ v by omega)
    have hgot : ∀ t u, proxyGot p (t ++ u) = proxyGot p t ++ proxyGot p u := fun t u => by
      simp only [proxyGot, List.filterMap_append]
    refine ⟨proxyGot p w, by rw [h9, hgot], ?_⟩
    rw [h1, ← List.singleton_append, routedTo_append, routedTo_append, routedTo_append] at h7
    simp only [List.filter_append, List.map_append] at h7
    rw [← h8, h9, hgot] at h7
    simp only [List.append_assoc, List.prefix_append_right_inj] at h7
    refine h7.subset ?_
    simp only [List.mem_append]
    exact .inr (.inr (.inl (List.mem_map.mpr ⟨(m, a), List.mem_filter.mpr ⟨h5, by simp⟩, rfl⟩)))

theorem heard_append (c : Nat) (t u : Trace) : heard c (t ++ u) = heard c t ++ heard c u := by
  simp only [heard, List.flatMap_append]

/-- The messages of a packet are dealt with after it was read. -/
theorem read_dealt (hf : r.Fair) (hr : r.Read) (hb : r.Settles) {c t : Nat} {b : Bytes} {o : Obs} {m : Msg}
    (h : r.act t = some (.packet c (.packet b), o)) (hm : m ∈ contents b) :
    ∃ u, t ≤ u ∧ (ConnOver c (r.hist u) ∨ ∃ q, settled c (r.hist u) = settled c (r.hist t) ++ q ∧ m ∈ q) := by
  obtain ⟨u, h1, h2⟩ := C104_messages_partial r hf hr hb c (t + 1)
  refine ⟨u, by omega, h2.symm.imp_right fun h2 => ?_⟩
  obtain ⟨w, h3, -⟩ := r.segment (show t ≤ u by omega)
  refine ⟨settled c w, by rw [h3, settled_append], ?_⟩
  obtain ⟨z, h4⟩ := (line (r.exec t)).prefix c
  rw [r.hist_succ, h, Option.toList_some, heard_append, ← h4, h3, settled_append, List.append_assoc,
    List.prefix_append_right_inj] at h2
  exact h2.subset (by simp [heard, hm])

/-- **C134.** On whatever socket, with no task and no call passed over: a message for an interface with an open
stub, in a packet that is read from a connection to `a`, is returned by that stub, as message from `a`, if the
user of the stub calls `recv_from` again and again; unless the connection ends first, the stub is dropped, or
accepting connections has failed. What is missing: handles must not stay full for ever (`C104_deadlock`). -/
theorem C134_stub_partial (hf : r.Fair) (hr : r.Read) (hb : r.Settles) {k i t c : Nat} {id : InterfaceId} {a : Addr}
    {b : Bytes} {o : Obs} {m : Msg} (hg : r.FairTo (· = .stubRecv k)) (hk : Shown (r.hist t) (.serving k i id))
    (hc : Shown (r.hist t) (.opened c a)) (h : r.act t = some (.packet c (.packet b), o)) (hm : m ∈ contents b)
    (hi : For m id) :
    ∃ u, t ≤ u ∧ (ConnOver c (r.hist u) ∨ (.dropStub k, .none) ∈ r.hist u ∨
      (∃ l, (.acceptNone l, .ended) ∈ r.hist u) ∨
      ∃ q, stubGot k (r.hist u) = stubGot k (r.hist t) ++ q ∧ (m, a) ∈ q) := by
  obtain ⟨u, h1, h2 | ⟨q, h2, h3⟩⟩ := read_dealt hf hr hb h hm
  · exact ⟨u, h1, .inl h2⟩
  · obtain ⟨w, h4, -⟩ := r.segment h1
    obtain ⟨v, h5, h6⟩ := dealt_returned hg (C104_calls_partial r hf hr hb k) hk hi h1
      (by rw [h4]; exact hc.mono _) h2 h3
    exact ⟨v, h5, .inr h6⟩

/-- **C134.** On whatever socket, with no task and no call passed over: a message for an interface with an open
proxy for `a`, in a packet that is read from a connection to `a`, is returned by that proxy, if the user of the
proxy calls `recv` again and again; unless the connection ends first, the proxy is dropped, or a connection to
`a` has failed, the only one on which the proxy has sent, if any. What is missing: handles must not stay full for ever (`C104_deadlock`). -/
theorem C134_proxy_partial (hf : r.Fair) (hr : r.Read) (hb : r.Settles) {p i t c : Nat} {id : InterfaceId} {a : Addr}
    {b : Bytes} {o : Obs} {m : Msg} (hg : r.FairTo (· = .proxyRecv p)) (hp : Shown (r.hist t) (.proxying p i id a))
    (hc : Shown (r.hist t) (.opened c a)) (h : r.act t = some (.packet c (.packet b), o)) (hm : m ∈ contents b)
    (hi : For m id) :
    ∃ u, t ≤ u ∧ (ConnOver c (r.hist u) ∨ (.dropProxy p, .none) ∈ r.hist u ∨ Severed p a (r.hist u) ∨
      ∃ q, proxyGot p (r.hist u) = proxyGot p (r.hist t) ++ q ∧ m ∈ q) := by
  obtain ⟨u, h1, h2 | ⟨q, h2, h3⟩⟩ := read_dealt hf hr hb h hm
  · exact ⟨u, h1, .inl h2⟩
  · obtain ⟨w, h4, -⟩ := r.segment h1
    obtain ⟨v, h5, h6⟩ := dealt_replied hg hp hi h1 (by rw [h4]; exact hc.mono _) h2 h3
    exact ⟨v, h5, .inr h6⟩

end

section
open Rt Rt.TcpNet Spec Spec.Ep Spec.TcpNet Someip
open Spec.TcpNode (written arrived app Plain Whole Broke)
open Spec.Node (reads)

variable {own : Addr → Bool} {r : Run own}

/-- The operating system has reported an error on a connection to `a`, and proxy `p` has sent on no other connection. -/
def Spec.TcpNode.CutOff (p : Nat) (a : Addr) (tr : Spec.TcpNode.Trace) : Prop :=
  ∃ e, Shown (app tr) (.opened e a) ∧ Broke e tr ∧ ∀ c m m', (.proxySend p m, .accepted c m') ∈ app tr → c = e

theorem tcp_fair_stubRecv {r : TcpNode.Run} {k : Nat} (hf : r.FairTo (· = .app (.stubRecv k))) :
    (TcpNode.epRun r).FairTo (· = .stubRecv k) :=
  TcpNode.fair_app hf (fun y hy => ⟨_, hy, rfl⟩) (by rintro x rfl; rfl) (by rintro x c p rfl; nofun)
    (by rintro x c p rfl; nofun)

theorem tcp_fair_proxyRecv {r : TcpNode.Run} {p : Nat} (hf : r.FairTo (· = .app (.proxyRecv p))) :
    (TcpNode.epRun r).FairTo (· = .proxyRecv p) :=
  TcpNode.fair_app hf (fun y hy => ⟨_, hy, rfl⟩) (by rintro x rfl; rfl) (by rintro x c p rfl; nofun)
    (by rintro x c p rfl; nofun)

theorem accepted_append (c : Nat) (t u : Spec.Ep.Trace) : accepted c (t ++ u) = accepted c t ++ accepted c u := by
  simp only [accepted, List.filterMap_append]

/-- A message accepted at one end is dealt with at the other end, after it was accepted. -/
theorem run_dealt (hf : Fair r) {n a : Addr} {c d t t' : Nat} (hr : Read r n) (hb : Settles r n)
    (hp : (r.state t').peer n c = some (a, d))
    (hpl : ∀ u, ∀ m₀ ∈ accepted d (app (at_ a (r.hist u))), Plain m₀)
    (hw : ∀ u, ∀ b ∈ reads c (app (at_ n (r.hist u))), Whole b)
    {x : TcpNode.Action} {y : Rt.Ep.Action} {j : Nat} {o : TcpNode.Obs} {m : Msg}
    (h : r.act t = some ((a, x, j), o)) (ho : o.ep = some (y, .accepted d m)) :
    ∃ u, t ≤ u ∧ (Useless n c a d (r.hist u) ∨ Shown (app (at_ n (r.hist u))) (.opened c a) ∧
      ∃ q, settled c (app (at_ n (r.hist u))) = settled c (app (at_ n (r.hist t))) ++ q ∧ m ∈ q) := by
  have hp' := (run_pairs r).2 t' (max (t + 1) t') n c _ (Nat.le_max_right ..) hp
  obtain ⟨u, h1, h2⟩ := run_whole hf hr hb hp' hpl hw
  have htu : t ≤ u := by omega
  refine ⟨u, htu, h2.imp_right fun h2 => ⟨?_, ?_⟩⟩
  · exact ((run_pairs r).1 u).opened n c a d ((run_pairs r).2 _ u n c _ h1 hp')
  obtain ⟨v, h3, -⟩ := r.segment (show t + 1 ≤ max (t + 1) t' by omega)
  obtain ⟨w, h4, -⟩ := r.segment htu
  -- what was dealt with before was accepted before
  have h5 : settled c (app (at_ n (r.hist t))) <+: accepted d (app (at_ a (r.hist t))) := by
    have h5 := peer_arrived (r.exec (max (t + 1) t')) hp' (r.hist t) _ (by
      rw [h3, r.hist_succ, List.append_assoc])
    have h6 := C87_messages_partial (each (r.exec t) a) (each (r.exec t) n) h5 (hpl t) (hw t)
    exact ((Ep.line (TcpNode.part (each (r.exec t) n))).prefix c).trans h6
  obtain ⟨z, h5⟩ := h5
  refine ⟨settled c (app (at_ n w)), by rw [h4, at_append, tcp_app_append, settled_append], ?_⟩
  have h6 : m ∈ accepted d (app (at_ a [((a, x, j), o)])) := by
    simp [accepted, app, at_, ho]
  rw [h3, r.hist_succ, h, Option.toList_some, at_append, at_append, tcp_app_append, tcp_app_append, accepted_append,
    accepted_append, ← h5, h4, at_append, tcp_app_append, settled_append, List.append_assoc, List.append_assoc,
    List.prefix_append_right_inj] at h2
  exact h2.subset (by simp [h6])

/-- What `C134_request_partial` says, about the two ends of the model's connections. -/
theorem tcp_request (hf : Fair r) {n : Addr} (hr : Read r n) (hb : Settles r n) :
    ∀ t t' c a d, (r.state t').peer n c = some (a, d) →
      (∀ u, ∀ m₀ ∈ accepted d (app (at_ a (r.hist u))), Plain m₀) →
      (∀ u, ∀ b ∈ reads c (app (at_ n (r.hist u))), Whole b) →
      ∀ k i id, r.FairTo (At n (· = .app (.stubRecv k))) →
        Shown (app (at_ n (r.hist t))) (.serving k i id) →
        ∀ x y j o m, r.act t = some ((a, x, j), o) → o.ep = some (y, .accepted d m) → For m id →
          ∃ u, t ≤ u ∧ (Useless n c a d (r.hist u) ∨ (.dropStub k, .none) ∈ app (at_ n (r.hist u)) ∨
            (∃ l, (.acceptNone l, .ended) ∈ app (at_ n (r.hist u))) ∨
            ∃ q, stubGot k (app (at_ n (r.hist u))) = stubGot k (app (at_ n (r.hist t))) ++ q ∧ (m, a) ∈ q) := by
  intro t t' c a d hp hpl hw k i id hg hk x y j o m h ho hi
  have hl := linked (r.exec t')
  have hn : own n = true := hl.owned a d n c (hl.symm n c a d hp)
  obtain ⟨u, h1, h2 | ⟨h2, q, h3, h4⟩⟩ := run_dealt hf hr hb hp hpl hw h ho
  · exact ⟨u, h1, .inl h2⟩
  have e1 : ∀ v, (TcpNode.epRun (nodeRun r n)).hist v = app (at_ n (r.hist v)) := fun v => by
    rw [TcpNode.epRun_hist, nodeRun_hist]
  have hf' := fair_node hf hn
  obtain ⟨v, h5, h6⟩ := dealt_returned (r := TcpNode.epRun (nodeRun r n)) (t := t) (u := u) (c := c) (a := a)
    (q := q) (m := m) (id := id) (i := i)
    (tcp_fair_stubRecv (node_fair hn (by rintro x rfl; simp) hg))
    (C104_calls_partial _ (TcpNode.ep_fair hf') (TcpNode.ep_read (read_node hr))
      (TcpNode.ep_settles (settles_node hb)) k)
    (by rw [e1]; exact hk) hi h1 (by rw [e1]; exact h2) (by rw [e1, e1]; exact h3) h4
  simp only [e1] at h6
  exact ⟨v, h5, .inr h6⟩

/-- **C134**, the part about programs connected by TCP that holds. Nobody is passed over, and no handle of the
program at `n` stays full for ever. The program at `a` sends a message for an interface for which there is a
stub at `n`, on a connection the other end of which is or will be accepted. If every read on it ends between
messages and the messages sent on it can be expressed in the format, and the user of the stub calls `recv_from`
again and again, then the stub returns the message, as message from `a`, after it was sent; unless the
connection breaks, the stub is dropped, or accepting connections has failed at `n`. What is missing: reads that
end inside a message (`C128_false`) and handles that stay full (`C127_deadlock`). -/
theorem C134_request_partial (hf : Fair r) {n : Addr} (hr : Read r n) (hb : Settles r n) :
    ∃ pair : Nat → Addr → Nat → Option (Addr × Nat), Coupled r pair ∧
      ∀ t t' c a d, pair t' n c = some (a, d) →
        (∀ u, ∀ m₀ ∈ accepted d (app (at_ a (r.hist u))), Plain m₀) →
        (∀ u, ∀ b ∈ reads c (app (at_ n (r.hist u))), Whole b) →
        ∀ k i id, r.FairTo (At n (· = .app (.stubRecv k))) →
          Shown (app (at_ n (r.hist t))) (.serving k i id) →
          ∀ x y j o m, r.act t = some ((a, x, j), o) → o.ep = some (y, .accepted d m) → For m id →
            ∃ u, t ≤ u ∧ (Useless n c a d (r.hist u) ∨ (.dropStub k, .none) ∈ app (at_ n (r.hist u)) ∨
              (∃ l, (.acceptNone l, .ended) ∈ app (at_ n (r.hist u))) ∨
              ∃ q, stubGot k (app (at_ n (r.hist u))) = stubGot k (app (at_ n (r.hist t))) ++ q ∧ (m, a) ∈ q) :=
  ⟨fun t => (r.state t).peer, run_coupled r, tcp_request hf hr hb⟩

/-- What `C134_reply_partial` says, about the two ends of the model's connections. -/
theorem tcp_reply (hf : Fair r) {n : Addr} (hr : Read r n) (hb : Settles r n) :
    ∀ t t' c a d, (r.state t').peer n c = some (a, d) →
      (∀ u, ∀ m₀ ∈ accepted d (app (at_ a (r.hist u))), Plain m₀) →
      (∀ u, ∀ b ∈ reads c (app (at_ n (r.hist u))), Whole b) →
      ∀ p i id, r.FairTo (At n (· = .app (.proxyRecv p))) →
        Shown (app (at_ n (r.hist t))) (.proxying p i id a) →
        ∀ x y j o m, r.act t = some ((a, x, j), o) → o.ep = some (y, .accepted d m) → For m id →
          ∃ u, t ≤ u ∧ (Useless n c a d (r.hist u) ∨ (.dropProxy p, .none) ∈ app (at_ n (r.hist u)) ∨
            Spec.TcpNode.CutOff p a (at_ n (r.hist u)) ∨
            ∃ q, proxyGot p (app (at_ n (r.hist u))) = proxyGot p (app (at_ n (r.hist t))) ++ q ∧ m ∈ q) := by
  intro t t' c a d hp hpl hw p i id hg hk x y j o m h ho hi
  have hl := linked (r.exec t')
  have hn : own n = true := hl.owned a d n c (hl.symm n c a d hp)
  obtain ⟨u, h1, h2 | ⟨h2, q, h3, h4⟩⟩ := run_dealt hf hr hb hp hpl hw h ho
  · exact ⟨u, h1, .inl h2⟩
  have e1 : ∀ v, (TcpNode.epRun (nodeRun r n)).hist v = app (at_ n (r.hist v)) := fun v => by
    rw [TcpNode.epRun_hist, nodeRun_hist]
  obtain ⟨v, h5, h6⟩ := dealt_replied (r := TcpNode.epRun (nodeRun r n)) (t := t) (u := u) (c := c) (a := a)
    (q := q) (m := m) (id := id) (i := i)
    (tcp_fair_proxyRecv (node_fair hn (by rintro x rfl; simp) hg))
    (by rw [e1]; exact hk) hi h1 (by rw [e1]; exact h2) (by rw [e1, e1]; exact h3) h4
  simp only [e1] at h6
  refine ⟨v, h5, .inr (h6.imp (fun h => h) fun h6 => h6.imp_left ?_)⟩
  rintro ⟨e, h7, ⟨x, h8, h9⟩, h10⟩
  exact ⟨e, h7, ends_broke (each (r.exec v) n) h8 h9, h10⟩

/-- **C134**, the part about programs connected by TCP that holds, for proxies. As before; the proxy at `n` is
for the program at `a`. The exceptions are that the connection breaks, the proxy is dropped, or the operating
system has reported an error on a connection to `a`, the only one on which the proxy has sent, if any. What is missing: as before. -/
theorem C134_reply_partial (hf : Fair r) {n : Addr} (hr : Read r n) (hb : Settles r n) :
    ∃ pair : Nat → Addr → Nat → Option (Addr × Nat), Coupled r pair ∧
      ∀ t t' c a d, pair t' n c = some (a, d) →
        (∀ u, ∀ m₀ ∈ accepted d (app (at_ a (r.hist u))), Plain m₀) →
        (∀ u, ∀ b ∈ reads c (app (at_ n (r.hist u))), Whole b) →
        ∀ p i id, r.FairTo (At n (· = .app (.proxyRecv p))) →
          Shown (app (at_ n (r.hist t))) (.proxying p i id a) →
          ∀ x y j o m, r.act t = some ((a, x, j), o) → o.ep = some (y, .accepted d m) → For m id →
            ∃ u, t ≤ u ∧ (Useless n c a d (r.hist u) ∨ (.dropProxy p, .none) ∈ app (at_ n (r.hist u)) ∨
              Spec.TcpNode.CutOff p a (at_ n (r.hist u)) ∨
              ∃ q, proxyGot p (app (at_ n (r.hist u))) = proxyGot p (app (at_ n (r.hist t))) ++ q ∧ m ∈ q) :=
  ⟨fun t => (r.state t).peer, run_coupled r, tcp_reply hf hr hb⟩

/-! ### A conversation over TCP -/

theorem tcp_rest_act {tr : Spec.TcpNet.Trace} {s : State} {i : Nat} {x : Action × TcpNode.Obs}
    (r3 : ∀ t, tr.length ≤ t → r.state t = s ∧ r.hist t = tr) (g6 : tr[i]? = some x) :
    ∃ j, r.hist j = tr.take i ∧ r.act j = some x := by
  obtain ⟨v, h3, -, h4⟩ := r.segment_acts (Nat.zero_le tr.length)
  rw [(r3 _ (Nat.le_refl _)).2] at h3
  have h0 : r.hist 0 = [] := rfl
  rw [h0, List.nil_append] at h3
  subst h3
  obtain ⟨hlt, h5⟩ := List.getElem?_eq_some_iff.mp g6
  have h6 : tr = tr.take i ++ tr[i] :: tr.drop (i + 1) := by
    rw [List.getElem_cons_drop, List.take_append_drop]
  obtain ⟨j, -, h7, h8⟩ := h4 _ _ _ h6
  rw [h0, List.nil_append] at h8
  rw [h5] at h7
  exact ⟨j, h8, h7⟩

/-- At rest nobody is passed over who can do nothing. -/
theorem tcp_rest_fair {tr : Spec.TcpNet.Trace} {s : State} {n : Addr} {x : TcpNode.Action}
    (r3 : ∀ t, tr.length ≤ t → r.state t = s ∧ r.hist t = tr) (h : TcpNode.step (s.nodes n) x = none) :
    r.FairTo (At n (· = x)) := by
  intro hio
  obtain ⟨t, h1, ⟨n', y, j⟩, o, s', ⟨rfl, h2⟩, h3⟩ := hio tr.length
  rw [(r3 t h1).1] at h3
  dsimp only at h2
  subst h2
  simp [step, h] at h3

/-- What happens in a run that comes to rest is at its place in the whole history. -/
theorem tcp_rest_index {tr : Spec.TcpNet.Trace} {s : State} {t : Nat} {x : Action × TcpNode.Obs}
    (r3 : ∀ t, tr.length ≤ t → r.state t = s ∧ r.hist t = tr) (h : r.act t = some x) :
    tr[(r.hist t).length]? = some x ∧ r.hist t = tr.take (r.hist t).length := by
  obtain ⟨v, h1, -⟩ := r.segment (Nat.le_max_left (t + 1) tr.length)
  rw [(r3 _ (Nat.le_max_right ..)).2, r.hist_succ, h, Option.toList_some, List.append_assoc] at h1
  rw [h1]
  simp

/-- Two programs: the request arrives in two pieces, is read at once, and returned by the stub, which answers;
the proxy returns the answer. -/
theorem tcp_talk : ∃ r : Run Spec.Net.two, Fair r ∧ (∀ n, Spec.Net.two n = true → Read r n ∧ Settles r n) ∧
    (∃ t l, (.accept l 5, .opened 0 5) ∈ app (at_ 6 (r.hist t))) ∧
    (∀ t, ¬ Useless 6 0 5 0 (r.hist t) ∧ ¬ Useless 5 0 6 0 (r.hist t)) ∧
    (∀ n, Spec.Net.two n = true → ∀ t d, ∀ m₀ ∈ accepted d (app (at_ n (r.hist t))), Plain m₀) ∧
    (∀ n, Spec.Net.two n = true → ∀ t, ∀ b ∈ reads 0 (app (at_ n (r.hist t))), Whole b) ∧
    (∀ n, Spec.Net.two n = true → (∀ k, r.FairTo (At n (· = .app (.stubRecv k)))) ∧
      (∀ p, r.FairTo (At n (· = .app (.proxyRecv p)))) ∧
      ∀ k N, ∃ t, N ≤ t ∧ inCall k (app (at_ n (r.hist t))) = false) ∧
    (∃ t o, Shown (app (at_ 6 (r.hist t))) (.serving 0 0 ⟨1, 1⟩) ∧
      r.act t = some ((5, .app (.proxySend 0 Ep.msgA), 0), o) ∧
      o.ep = some (.proxySend 0 Ep.msgA, .accepted 0 Ep.msgA) ∧
      Shown (app (at_ 5 (r.hist t))) (.proxying 0 0 ⟨1, 1⟩ 6)) ∧
    (∃ t o, Shown (app (at_ 5 (r.hist t))) (.proxying 0 0 ⟨1, 1⟩ 6) ∧
      r.act t = some ((6, .app (.stubStep 0), 0), o) ∧ o.ep = some (.stubStep 0, .accepted 0 Spec.Net.answerA)) ∧
    (For Ep.msgA ⟨1, 1⟩ ∧ For Spec.Net.answerA ⟨1, 1⟩) ∧
    (∃ t, Shown (app (at_ 6 (r.hist t))) (.serving 0 0 ⟨1, 1⟩) ∧ Shown (app (at_ 6 (r.hist t))) (.opened 0 5) ∧
      r.act t = some ((6, .read 0 (.read 1400), 0), ⟨some (.packet 0 (.packet (frame Ep.msgA)), .none), none⟩)) ∧
    (∃ t, Shown (app (at_ 5 (r.hist t))) (.proxying 0 0 ⟨1, 1⟩ 6) ∧ Shown (app (at_ 5 (r.hist t))) (.opened 0 6) ∧
      r.act t = some ((5, .read 0 (.read 1400), 0),
        ⟨some (.packet 0 (.packet (frame Spec.Net.answerA)), .none), none⟩)) ∧
    (∃ t o, Shown (app (at_ 5 (r.hist t))) (.proxying 0 0 ⟨1, 1⟩ 6) ∧
      r.act t = some ((6, .app (.stubSend 0 5 Spec.Net.answerA), 0), o) ∧
      o.ep = some (.stubSend 0 5 Spec.Net.answerA, .none) ∧ Home (app (at_ 6 (r.hist t))) 0 0 5 ∧
      (∀ u y j o', r.act u = some ((6, y, j), o') → o'.ep = some (.stubRecv 0, .message Ep.msgA 5) → u < t) ∧
      ∀ u y j o', r.act u = some ((6, y, j), o') → o'.ep = some (.stubSend 0 5 Spec.Net.answerA, .none) →
        Home (app (at_ 6 (r.hist u))) 0 0 5) ∧
    ∃ t, stubGot 0 (app (at_ 6 (r.hist t))) = [(Ep.msgA, 5)] ∧
      proxyGot 0 (app (at_ 5 (r.hist t))) = [Spec.Net.answerA] := by
  obtain ⟨tr, s, e, h⟩ := exec_by (step := step Spec.Net.two) (s := init)
    (dialogue ++ [(5, .app (.proxyRecv 0), 0)])
    (fun (tr : Spec.TcpNet.Trace) s => Spec.TcpNet.calm s && Spec.TcpNode.errorless (at_ 5 tr) &&
      Spec.TcpNode.errorless (at_ 6 tr) && allPlain (app (at_ 5 tr)) && allPlain (app (at_ 6 tr)) && decide (
      (((s.nodes 6).ep.conns 0).alive = true ∧ ((s.nodes 5).ep.conns 0).alive = true ∧
      (∀ x ∈ at_ 6 tr, (match x.1 with | .shut _ => false | _ => true) = true) ∧
      (∀ x ∈ at_ 5 tr, (match x.1 with | .shut _ => false | _ => true) = true) ∧
      ((Rt.Ep.Action.accept 0 5, Rt.Ep.Obs.opened 0 5) : Rt.Ep.Action × Rt.Ep.Obs) ∈ app (at_ 6 tr) ∧
      reads 0 (app (at_ 6 tr)) = [frame Ep.msgA] ∧ reads 0 (app (at_ 5 tr)) = [frame Spec.Net.answerA]) ∧
      tr[15]? = some ((5, TcpNode.Action.app (.proxySend 0 Ep.msgA), 0),
        (⟨some (.proxySend 0 Ep.msgA, .accepted 0 Ep.msgA), none⟩ : TcpNode.Obs)) ∧
      (app (at_ 6 (tr.take 15))).any (fun x => decide (x.2 = .serving 0 0 ⟨1, 1⟩)) = true ∧
      tr[31]? = some ((6, TcpNode.Action.app (.stubStep 0), 0),
        (⟨some (.stubStep 0, .accepted 0 Spec.Net.answerA), none⟩ : TcpNode.Obs)) ∧
      (app (at_ 5 (tr.take 31))).any (fun x => decide (x.2 = .proxying 0 0 ⟨1, 1⟩ 6)) = true ∧
      stubGot 0 (app (at_ 6 tr)) = [(Ep.msgA, 5)] ∧ proxyGot 0 (app (at_ 5 tr)) = [Spec.Net.answerA] ∧
      (∀ n ∈ ([5, 6] : List Addr), ∀ k, k < (s.nodes n).ep.stubCount →
        (TcpNode.step (s.nodes n) (.app (.stubRecv k))).isNone = true ∧ ((s.nodes n).ep.stubs k).pc = .idle) ∧
      (∀ n ∈ ([5, 6] : List Addr), ∀ p, p < (s.nodes n).ep.proxyCount →
        (TcpNode.step (s.nodes n) (.app (.proxyRecv p))).isNone = true)) && decide (
      tr[23]? = some ((6, TcpNode.Action.read 0 (.read 1400), 0),
        (⟨some (.packet 0 (.packet (frame Ep.msgA)), .none), none⟩ : TcpNode.Obs)) ∧
      (app (at_ 6 (tr.take 23))).any (fun x => decide (x.2 = .serving 0 0 ⟨1, 1⟩)) = true ∧
      (app (at_ 6 (tr.take 23))).any (fun x => decide (x.2 = .opened 0 5)) = true ∧
      tr[35]? = some ((5, TcpNode.Action.read 0 (.read 1400), 0),
        (⟨some (.packet 0 (.packet (frame Spec.Net.answerA)), .none), none⟩ : TcpNode.Obs)) ∧
      (app (at_ 5 (tr.take 35))).any (fun x => decide (x.2 = .proxying 0 0 ⟨1, 1⟩ 6)) = true ∧
      (app (at_ 5 (tr.take 35))).any (fun x => decide (x.2 = .opened 0 6)) = true) && decide (
      tr[28]? = some ((6, TcpNode.Action.app (.stubSend 0 5 Spec.Net.answerA), 0),
        (⟨some (.stubSend 0 5 Spec.Net.answerA, .none), none⟩ : TcpNode.Obs)) ∧
      (app (at_ 5 (tr.take 28))).any (fun x => decide (x.2 = .proxying 0 0 ⟨1, 1⟩ 6)) = true ∧
      app (at_ 6 (tr.take 28)) = (app (at_ 6 (tr.take 28))).take 7 ++ (Rt.Ep.Action.accept 0 5, Rt.Ep.Obs.opened 0 5) ::
        (Rt.Ep.Action.lisShare 0, Rt.Ep.Obs.none) :: (app (at_ 6 (tr.take 28))).drop (7 + 2)) &&
      (((app (at_ 6 (tr.take 28))).take 7 ++ (app (at_ 6 (tr.take 28))).drop (7 + 2)).all fun x =>
        match x.1 with | .accept _ b => b != 5 | _ => true) &&
      (((app (at_ 6 (tr.take 28))).take 7).all fun x => match x.1 with | .stubSend _ b _ => b != 5 | _ => true) &&
      decide ((∀ i, i < tr.length → 28 ≤ i → (tr[i]?.bind fun x => x.2.ep.map Prod.fst) ≠ some (.stubRecv 0)) ∧
        ∀ i, i < tr.length → i ≠ 28 →
          (tr[i]?.bind fun x => x.2.ep.map Prod.fst) ≠ some (.stubSend 0 5 Spec.Net.answerA)) &&
      (app (at_ 5 (tr.take 15))).any (fun x => decide (x.2 = .proxying 0 0 ⟨1, 1⟩ 6)))
    (by decide +kernel)
  simp only [Bool.and_eq_true, decide_eq_true_eq, Option.isNone_iff_eq_none] at h
  obtain ⟨⟨⟨⟨⟨⟨⟨⟨⟨⟨⟨g1, g2⟩, g2'⟩, g3⟩, g3'⟩, ⟨g4, g4', g5, g5', g6, g8, g8'⟩, g9, g10, g11, g12, g13, g14, g15, g16⟩, g17,
    g18, g19, g20, g21, g22⟩, g23, g24, g25⟩, g26⟩, g27⟩, g28, g29⟩, g30⟩ := h
  obtain ⟨r, r1, r2, r3, r4⟩ := net_calm e g1
  have hA : Plain Ep.msgA := ⟨by unfold Normal; decide, by decide⟩
  have hB : Plain Spec.Net.answerA := ⟨by unfold Normal; decide, by decide⟩
  have sub : ∀ t, r.hist t <+: tr := by
    intro t
    obtain ⟨v, h1, -⟩ := r.segment (Nat.le_max_left t tr.length)
    rw [(r4 _ (Nat.le_max_right ..)).2] at h1
    exact ⟨v, h1.symm⟩
  have shown : ∀ {tr : Spec.Ep.Trace} {w : Rt.Ep.Obs}, tr.any (fun x => decide (x.2 = w)) = true → Shown tr w := by
    intro tr w h
    obtain ⟨⟨y, w'⟩, h9, h10⟩ := List.any_eq_true.mp h
    simp only [decide_eq_true_eq] at h10
    exact ⟨y, by rw [← h10]; exact h9⟩
  have hown : ∀ n, Spec.Net.two n = true → n = 5 ∨ n = 6 := fun n hn => by
    simpa only [Spec.Net.two, Bool.or_eq_true, decide_eq_true_eq] using hn
  have hmem : ∀ n, Spec.Net.two n = true → n ∈ ([5, 6] : List Addr) := fun n hn => by
    rcases hown n hn with rfl | rfl <;> simp
  have hfr := fun n => (Rt.Ep.good_hist (TcpNode.part ((each e) n))).1.fresh
  refine ⟨r, r1, fun n hn => ⟨r2 n hn, r3 n⟩, ⟨tr.length, 0, ?_⟩, fun t => ⟨fun hu => ?_, fun hu => ?_⟩,
    fun n hn t d m₀ hm => ?_, fun n hn t b hb => ?_,
    fun n hn => ⟨fun k => tcp_rest_fair r4 ?_, fun p => tcp_rest_fair r4 ?_,
      fun k N => ⟨max N tr.length, Nat.le_max_left .., ?_⟩⟩, ?_, ?_,
    by unfold For; decide, ?_, ?_, ?_, tr.length, ?_⟩
  · rw [(r4 _ (Nat.le_refl _)).2]; exact g6
  · have := useless_grow (Nat.le_max_left t tr.length) hu
    rw [(r4 _ (Nat.le_max_right ..)).2] at this
    exact useful_always e g2 g4 g5 this
  · have := useless_grow (Nat.le_max_left t tr.length) hu
    rw [(r4 _ (Nat.le_max_right ..)).2] at this
    exact useful_always e g2' g4' g5' this
  · obtain ⟨v, hv⟩ := sub t
    have hall : allPlain (app (at_ n tr)) = true := by
      rcases hown n hn with rfl | rfl
      · exact g3
      · exact g3'
    simp only [accepted, List.mem_filterMap] at hm
    obtain ⟨⟨z, o⟩, hz, ho⟩ := hm
    cases o <;> simp only [reduceCtorEq] at ho
    split at ho
    · cases ho
      refine plain_of_all hall z d _ ?_
      rw [← hv, at_append, tcp_app_append]
      rename_i heq
      subst heq
      exact List.mem_append_left _ hz
    · cases ho
  · obtain ⟨v, hv⟩ := sub t
    have : b ∈ reads 0 (app (at_ n tr)) := by
      rw [← hv, at_append, tcp_app_append, reads_append]
      exact List.mem_append_left _ hb
    rcases hown n hn with rfl | rfl
    · rw [g8'] at this
      cases List.mem_singleton.mp this
      exact ⟨[_], by simpa using hB, by simp⟩
    · rw [g8] at this
      cases List.mem_singleton.mp this
      exact ⟨[_], by simpa using hA, by simp⟩
  · rcases Nat.lt_or_ge k (s.nodes n).ep.stubCount with h | h
    · exact (g15 n (hmem n hn) k h).1
    · simp [TcpNode.step, TcpNode.does, Rt.Ep.step, Rt.Ep.stubRecv, (hfr n).stubs k h]
  · rcases Nat.lt_or_ge p (s.nodes n).ep.proxyCount with h | h
    · exact g16 n (hmem n hn) p h
    · simp [TcpNode.step, TcpNode.does, Rt.Ep.step, Rt.Ep.proxyRecv, (hfr n).proxies p h]
  · rw [(r4 _ (Nat.le_max_right ..)).2]
    refine (Rt.Ep.idle_iff (TcpNode.part ((each e) n)) k).mp ?_
    rcases Nat.lt_or_ge k (s.nodes n).ep.stubCount with h | h
    · exact (g15 n (hmem n hn) k h).2
    · rw [(hfr n).stubs k h]
  · obtain ⟨j, h7, h8⟩ := tcp_rest_act r4 g9
    exact ⟨j, _, by rw [h7]; exact shown g10, h8, rfl, by rw [h7]; exact shown g30⟩
  · obtain ⟨j, h7, h8⟩ := tcp_rest_act r4 g11
    exact ⟨j, _, by rw [h7]; exact shown g12, h8, rfl⟩
  · obtain ⟨j, h7, h8⟩ := tcp_rest_act r4 g17
    exact ⟨j, by rw [h7]; exact shown g18, by rw [h7]; exact shown g19, h8⟩
  · obtain ⟨j, h7, h8⟩ := tcp_rest_act r4 g20
    exact ⟨j, by rw [h7]; exact shown g21, by rw [h7]; exact shown g22, h8⟩
  · obtain ⟨j, h7, h8⟩ := tcp_rest_act r4 g23
    refine ⟨j, _, by rw [h7]; exact shown g24, h8, rfl, by rw [h7]; exact home_at 7 g25 g26 g27,
      fun u y j' o' h9 h10 => ?_, fun u y j' o' h9 h10 => ?_⟩
    · obtain ⟨h11, -⟩ := tcp_rest_index r4 h9
      refine Nat.lt_of_not_ge fun hle => ?_
      obtain ⟨v, h12, -⟩ := r.segment hle
      have hlt : (r.hist u).length < tr.length := (List.getElem?_eq_some_iff.mp h11).1
      have h13 : 28 ≤ (r.hist u).length := by
        rw [h12, h7, List.length_append, List.length_take]
        have : 28 < tr.length := (List.getElem?_eq_some_iff.mp g23).1
        omega
      exact g28 _ hlt h13 (by rw [h11]; simp [h10])
    · obtain ⟨h11, h12⟩ := tcp_rest_index r4 h9
      have hlt : (r.hist u).length < tr.length := (List.getElem?_eq_some_iff.mp h11).1
      have h13 : (r.hist u).length = 28 := Classical.byContradiction fun h13 =>
        g29 _ hlt h13 (by rw [h11]; simp [h10])
      rw [h12, h13]
      exact home_at 7 g25 g26 g27
  · rw [(r4 _ (Nat.le_refl _)).2]; exact ⟨g13, g14⟩

/-- Of an endpoint alone: a packet with a message for an open stub, and one with a message for an open proxy. -/
example : (∃ (r : Spec.Ep.Run false) (t : Nat), r.Fair ∧ r.Read ∧ r.Settles ∧ r.FairTo (· = .stubRecv 0) ∧
      Shown (r.hist t) (.serving 0 0 ⟨1, 1⟩) ∧ Shown (r.hist t) (.opened 0 5) ∧
      r.act t = some (.packet 0 (.packet (frame Ep.msgA)), .none) ∧ Ep.msgA ∈ contents (frame Ep.msgA)) ∧
    ∃ (r : Spec.Ep.Run false) (t : Nat), r.Fair ∧ r.Read ∧ r.Settles ∧ r.FairTo (· = .proxyRecv 0) ∧
      Shown (r.hist t) (.proxying 0 0 ⟨1, 1⟩ 6) ∧ Shown (r.hist t) (.opened 0 6) ∧
      r.act t = some (.packet 0 (.packet (frame Spec.Net.answerA)), .none) ∧
      Spec.Net.answerA ∈ contents (frame Spec.Net.answerA) := by
  obtain ⟨r, hf, h1, -, -, -, -, h2, -, -, -, ⟨t, h4, h5, h6⟩, ⟨t', h7, h8, h9⟩, -⟩ := tcp_talk
  have e1 : ∀ n v, (TcpNode.epRun (nodeRun r n)).hist v = app (at_ n (r.hist v)) := fun n v => by
    rw [TcpNode.epRun_hist, nodeRun_hist]
  have hA : ∀ m : Msg, Plain m → m ∈ contents (frame m) := by
    intro m hm
    have := Rt.Ep.contents_eq (Frames.flatMap [m] fun x hx => by
      cases List.mem_singleton.mp hx; exact hm)
    simp only [List.flatMap_cons, List.flatMap_nil, List.append_nil] at this
    simp [this]
  refine ⟨⟨TcpNode.epRun (nodeRun r 6), t, TcpNode.ep_fair (fair_node hf rfl), TcpNode.ep_read (read_node (h1 6 rfl).1),
      TcpNode.ep_settles (settles_node (h1 6 rfl).2), tcp_fair_stubRecv (node_fair rfl (by rintro x rfl; simp) ((h2 6 rfl).1 0)),
      by rw [e1]; exact h4, by rw [e1]; exact h5, ?_, hA _ ⟨by unfold Normal; decide, by decide⟩⟩,
    TcpNode.epRun (nodeRun r 5), t', TcpNode.ep_fair (fair_node hf rfl), TcpNode.ep_read (read_node (h1 5 rfl).1),
      TcpNode.ep_settles (settles_node (h1 5 rfl).2), tcp_fair_proxyRecv (node_fair rfl (by rintro x rfl; simp) ((h2 5 rfl).2.1 0)),
      by rw [e1]; exact h7, by rw [e1]; exact h8, ?_, hA _ ⟨by unfold Normal; decide, by decide⟩⟩
  · simp [TcpNode.epRun, nodeRun, h6]
  · simp [TcpNode.epRun, nodeRun, h9]

end

end Rsomeip
