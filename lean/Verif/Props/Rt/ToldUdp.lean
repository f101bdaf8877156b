import Verif.Props.Rt.Told
import Verif.Props.Rt.LiveHandle

/-! # C142: when a UDP socket is gone, everybody is told -/

namespace Rsomeip

namespace Rt.Udp

variable {s s' : State} {a : Action} {o : Obs}

/-- The receiving task has ended and the `UdpSocket` was dropped. -/
def Over (s : State) : Prop := s.pc = .stopped ∧ s.owner = false

theorem Over.step (h : Over s) (m : Move s a o s') : Over s' := by
  obtain ⟨h1, h2⟩ := h
  cases m <;> first | exact ⟨h1, h2⟩ | simp_all

/-- Nothing is put into a channel any more, and what is read is gone. -/
theorem Over.chan (h : Over s) (m : Move s a o s') (d : Nat) :
    (s'.chans d).queue.length + (s'.chans d).missed ≤ (s.chans d).queue.length + (s.chans d).missed ∧
    (a = .recv d → o ≠ .closed →
      (s'.chans d).queue.length + (s'.chans d).missed < (s.chans d).queue.length + (s.chans d).missed) := by
  obtain ⟨h1, h2⟩ := h
  cases m <;> first | exact ⟨Nat.le_refl _, nofun⟩ | (constructor <;> grind [upd])

theorem Over.backlog (h : Over s) (m : Move s a o s') (b : Nat) :
    (s'.backlogs b).queue.length ≤ (s.backlogs b).queue.length ∧
    (a = .accept b → o ≠ .acceptNone → (s'.backlogs b).queue.length < (s.backlogs b).queue.length) := by
  obtain ⟨h1, h2⟩ := h
  cases m <;> first | exact ⟨Nat.le_refl _, nofun⟩ | (constructor <;> grind [upd])

end Rt.Udp

/-- A stub keeps its listener. -/
theorem Rt.Ep.stub_lis_stays {dg : Bool} {s s' : Ep.State} {tr : Spec.Ep.Trace} {k : Nat} (hk : k < s.stubCount)
    (e : Exec (Ep.step dg) s tr s') : k < s'.stubCount ∧ (s'.stubs k).lis = (s.stubs k).lis := by
  induction e with
  | nil => exact ⟨hk, rfl⟩
  | snoc _ hs ih =>
    have h := (Rt.Ep.move_of_step hs).stub_keep ih.1
    exact ⟨h.1, h.2.2.trans ih.2⟩

section
open Rt Rt.Node Spec Spec.Ep Spec.Node
open Someip (InterfaceId)

variable {r : Node.Run}

theorem over_of {n : Nat} (h1 : (.close, .none) ∈ socket (r.hist n)) (h2 : (.failure, .none) ∈ socket (r.hist n)) :
    ∀ m, n ≤ m → Rt.Udp.Over (r.state m).udp := by
  intro m hm
  obtain ⟨t, ht, -⟩ := r.segment hm
  have e := (parts (r.exec m)).2
  have mono : ∀ x, x ∈ socket (r.hist n) → x ∈ socket (r.hist m) := by
    intro x hx
    rw [ht, socket_append]
    exact List.mem_append_left _ hx
  exact ⟨(Rt.Udp.failed_iff e).mp (mono _ h2), (Rt.Udp.closed_iff e).mp (mono _ h1)⟩

/-- What is measured by `f` and does not grow in any step of the socket does not grow in any step. -/
theorem udp_le {f : Rt.Udp.State → Nat} {n m : Nat} (ho : ∀ k, n ≤ k → Rt.Udp.Over (r.state k).udp) (hm : n ≤ m)
    (hf : ∀ s a o s', Rt.Udp.Over s → Rt.Udp.Move s a o s' → f s' ≤ f s) :
    f (r.state (m + 1)).udp ≤ f (r.state m).udp := by
  obtain ⟨t, -, h⟩ := r.segment (Nat.le_succ m)
  have h1 := parts_udp h
  have h2 := ho m hm
  suffices key : Rt.Udp.Over (r.state (m + 1)).udp ∧ f (r.state (m + 1)).udp ≤ f (r.state m).udp from key.2
  generalize (r.state (m + 1)).udp = v at h1
  generalize socket t = us at h1
  induction h1 with
  | nil => exact ⟨h2, Nat.le_refl _⟩
  | snoc _ hs ih =>
    have := Rt.Udp.move_of_step hs
    exact ⟨ih.1.step this, Nat.le_trans (hf _ _ _ _ ih.1 this) ih.2⟩

/-- A connection of a socket that is gone ends. -/
theorem gone_conn_ends (hf : Node.Fair r) (hr : Node.Read r) (hb : Node.Settles r) {c n : Nat}
    (ho : ∀ m, n ≤ m → Rt.Udp.Over (r.state m).udp) (hc : c < (r.state n).ep.connCount) :
    ∃ m, n ≤ m ∧ ((r.state m).ep.conns c).alive = false := by
  apply Classical.byContradiction
  intro hn
  have h1 : ∀ m, n ≤ m → ((r.state m).ep.conns c).alive = true := fun m hm =>
    (Bool.not_eq_false _).mp fun h => hn ⟨m, hm, h⟩
  have h2 : ∀ m, n ≤ m → c < (r.state m).ep.connCount ∧ (r.state m).chan c = (r.state n).chan c := by
    intro m hm
    obtain ⟨t, -, h3⟩ := r.segment hm
    exact chan_stays h3 hc
  let d := (r.state n).chan c
  let f : Rt.Udp.State → Nat := fun u => (u.chans d).queue.length + (u.chans d).missed
  have h3 : ∀ m, n ≤ m → f (r.state (m + 1)).udp ≤ f (r.state m).udp := fun m hm =>
    udp_le ho hm fun s a o s' h hm => (h.chan hm d).1
  have h4 : ∀ m, n ≤ m → r.Does m (RecvStep c) → f (r.state (m + 1)).udp < f (r.state m).udp := by
    rintro m hm ⟨a, o, h4, p, rfl⟩
    have h5 := (h2 m hm).2
    have h6 := h1 (m + 1) (by omega)
    have h7 := ho m hm
    rcases r.move m with ⟨h8, _⟩ | ⟨a', o', h8, h9⟩
    · rw [h4] at h8; cases h8
    · rw [h4] at h8
      cases h8
      generalize r.state (m + 1) = z at h9 h6
      cases move_of_step h9 with
      | net _ u v w ha => exact absurd rfl (ha _)
      | app _ e o _ us out he hcall =>
        cases hcall with
        | recv c' q v w hx hr ha hu =>
          cases hx
          rw [h5] at hu
          refine (h7.chan (Rt.Udp.move_of_step hu) d).2 rfl ?_
          rintro rfl
          cases hr
          generalize hz : Rt.Ep.Action.packet c .closed = z at he
          cases Rt.Ep.move_of_step he <;> cases hz <;> simp_all [receive, upd, Rt.Ep.Conn.ended]
        | recvEnd c' q v v' w w' hx hr ha hu hu' =>
          cases hx
          simp only at h6
          rw [ha] at h6
          cases h6
        | still _ _ _ _ h5 => exact absurd rfl (h5 _ _)
        | _ => simp_all
  have h5 : ∀ m, n ≤ m → f (r.state m).udp ≤ f (r.state n).udp := by
    intro m hm
    induction m, hm using Nat.le_induction with
    | base => exact Nat.le_refl _
    | succ m hm ih => exact Nat.le_trans (h3 m hm) ih
  obtain ⟨m, h6, h7⟩ := r.grows (hf.recv c) (fun m => f (r.state n).udp - f (r.state m).udp) (N := n)
    (fun m hm => by have := h3 m hm; show _ ≤ _; omega)
    (fun m hm hd => by have := h4 m hm hd; have := h5 m hm; show _ < _; omega) (fun M => by
      obtain ⟨m, h5, h6⟩ := Rt.Ep.waits_again (ep_fair hf) (ep_read hr) (ep_settles hb) c (max M n)
      have h7 := h1 m (by omega)
      have h6 := h6.resolve_left (by
        intro h
        rw [show ((epRun r).state m) = (r.state m).ep from rfl, h7] at h
        cases h)
      have hl := link (r.exec m)
      obtain ⟨g1, g2, g3, g4⟩ := hl.chan c (h2 m (by omega)).1
      rw [h7] at g4
      obtain ⟨o1, o2⟩ := ho m (by omega)
      refine ⟨m, by omega, ?_⟩
      by_cases hq : ((r.state m).udp.chans ((r.state m).chan c)).queue ≠ [] ∨
          ((r.state m).udp.chans ((r.state m).chan c)).missed ≠ 0
      · obtain ⟨y, s', w, h11, h12⟩ := can_recv hl (h2 m (by omega)).1 h7 h6 hq
        exact ⟨y, w, s', h11, h12⟩
      · simp only [not_or, ne_eq, Classical.not_not] at hq
        obtain ⟨q1, q2⟩ := hq
        have hh : (r.state m).udp.hasSender ((r.state m).chan c) = false := by
          simp [Rt.Udp.State.hasSender, Rt.Udp.State.shared, o1, o2]
        have : ∃ s' w, Node.step (r.state m) (.app (.packet c .closed)) = some (s', w) := by
          simp [Node.step, Rt.Ep.step, Rt.Ep.packet, h7, show ((r.state m).ep.conns c).pc = .wait from h6, receive,
            appCall, recvCall, Rt.Udp.step, Rt.Udp.recv, g1, g2, g4, q1, q2, hh, Node.received, release, call, upd,
            Rt.Ep.Conn.ended, Rt.Udp.dropReceiver]
        obtain ⟨s', w, h8⟩ := this
        exact ⟨_, w, s', ⟨_, rfl⟩, h8⟩)
    (f (r.state n).udp + 1)
  omega

/-- A listener of a socket that is gone ends. -/
theorem gone_lis_ends (hf : Node.Fair r) (ha : ∀ l, r.FairTo (· = .app (.acceptNone l))) (hb : Node.Settles r) {l n : Nat}
    (ho : ∀ m, n ≤ m → Rt.Udp.Over (r.state m).udp) (hl : l < (r.state n).ep.lisCount) :
    ∃ m, n ≤ m ∧ ((r.state m).ep.liss l).alive = false := by
  apply Classical.byContradiction
  intro hn
  have h1 : ∀ m, n ≤ m → ((r.state m).ep.liss l).alive = true := fun m hm =>
    (Bool.not_eq_false _).mp fun h => hn ⟨m, hm, h⟩
  have h2 : ∀ m, n ≤ m → l < (r.state m).ep.lisCount ∧ (r.state m).backlog l = (r.state n).backlog l := by
    intro m hm
    obtain ⟨t, -, h3⟩ := r.segment hm
    exact backlog_stays h3 hl
  let b := (r.state n).backlog l
  let f : Rt.Udp.State → Nat := fun u => (u.backlogs b).queue.length
  have h3 : ∀ m, n ≤ m → f (r.state (m + 1)).udp ≤ f (r.state m).udp := fun m hm =>
    udp_le ho hm fun s a o s' h hm => (h.backlog hm b).1
  have h5 : ∀ k m, n ≤ k → k ≤ m → f (r.state m).udp ≤ f (r.state k).udp := by
    intro k m hk hm
    induction m, hm using Nat.le_induction with
    | base => exact Nat.le_refl _
    | succ m hm ih => exact Nat.le_trans (h3 m (by omega)) ih
  have wait : ∀ M, ∃ m, max M n ≤ m ∧ ((r.state m).ep.liss l).pc = .wait := by
    intro M
    obtain ⟨m, h6, h7⟩ := lis_waits_again hf hb l (max M n)
    refine ⟨m, h6, h7.resolve_left ?_⟩
    rw [h1 m (by omega)]
    nofun
  obtain ⟨k, hk, hq⟩ : ∃ k, n ≤ k ∧ f (r.state k).udp = 0 := by
    apply Classical.byContradiction
    intro hc
    have h4 : ∀ m, n ≤ m → r.Does m (AcceptStep l) → f (r.state (m + 1)).udp < f (r.state m).udp := by
      rintro m hm ⟨a, o, h4, p, rfl⟩
      have h5 := (h2 m hm).2
      have h7 := ho m hm
      rcases r.move m with ⟨h8, _⟩ | ⟨a', o', h8, h9⟩
      · rw [h4] at h8; cases h8
      · rw [h4] at h8
        cases h8
        generalize r.state (m + 1) = z at h9
        cases move_of_step h9 with
        | net _ u v w ha => exact absurd rfl (ha _)
        | app _ e o _ us out he hcall =>
          cases hcall with
          | accept l' a' v d hx hu =>
            cases hx
            rw [h5] at hu
            exact (h7.backlog (Rt.Udp.move_of_step hu) b).2 rfl nofun
          | still _ h5 => exact absurd rfl (h5 _ _)
          | _ => simp_all
    obtain ⟨m, h6, h7⟩ := r.grows (hf.accept l) (fun m => f (r.state n).udp - f (r.state m).udp) (N := n)
      (fun m hm => by have := h3 m hm; show _ ≤ _; omega)
      (fun m hm hd => by have := h4 m hm hd; have := h5 n m (by omega) hm; show _ < _; omega) (fun M => by
        obtain ⟨m, h6, h7⟩ := wait M
        obtain ⟨y, s', w, h11, h12⟩ := can_accept (link (r.exec m)) (Rt.Ep.good_hist (parts (r.exec m)).1).1
          (h1 m (by omega)) h7 (fun hq => hc ⟨m, by omega, by
            rw [(h2 m (by omega)).2] at hq
            show List.length _ = 0
            rw [hq]; rfl⟩)
        exact ⟨m, by omega, y, w, s', h11, h12⟩)
      (f (r.state n).udp + 1)
    omega
  obtain ⟨m, h6, a, o, h7, rfl⟩ := ha l (fun M => by
    obtain ⟨m, h6, h7⟩ := wait (max M k)
    have h8 : ((r.state m).udp.backlogs ((r.state m).backlog l)).queue = [] := by
      have := h5 k m hk (by omega)
      rw [(h2 m (by omega)).2]
      exact List.eq_nil_of_length_eq_zero (show f (r.state m).udp = 0 by omega)
    obtain ⟨g1, g2⟩ := (link (r.exec m)).backlog l (h2 m (by omega)).1
    rw [h1 m (by omega)] at g2
    obtain ⟨o1, o2⟩ := ho m (by omega)
    have : ∃ s' w, Node.step (r.state m) (.app (.acceptNone l)) = some (s', w) := by
      simp [Node.step, Rt.Ep.step, h1 m (by omega), h7, appCall, Rt.Udp.step, Rt.Udp.accept, g1, g2, h8,
        Rt.Udp.State.shared, o1, o2, Rt.Udp.dropListener]
    obtain ⟨s', w, h9⟩ := this
    exact ⟨m, by omega, _, w, s', rfl, h9⟩) n
  have h8 := h1 (m + 1) (by omega)
  rcases r.move m with ⟨h9, _⟩ | ⟨a', o', h9, h10⟩
  · rw [h7] at h9; cases h9
  · rw [h7] at h9
    cases h9
    generalize r.state (m + 1) = z at h10 h8
    cases move_of_step h10 with
    | net _ u v w ha => exact absurd rfl (ha _)
    | app _ e o _ us out he hcall =>
      rw [hcall.ep] at h8
      cases Rt.Ep.move_of_step he
      simp [upd, Rt.Ep.deadLis] at h8

/-- **C142.** When the socket of an endpoint is gone, that is, the receiving task has failed and the endpoint task
has dropped its `UdpSocket`, every connection ends in the long run. -/
theorem C142_connections (hf : Node.Fair r) (hr : Node.Read r) (hb : Node.Settles r) {n : Nat}
    (h1 : (.close, .none) ∈ socket (r.hist n)) (h2 : (.failure, .none) ∈ socket (r.hist n)) {c : Nat} {a : Addr}
    (hc : Shown (app (r.hist n)) (.opened c a)) : ∃ m, n ≤ m ∧ ConnOver c (app (r.hist m)) := by
  obtain ⟨m, hm, h3⟩ : ∃ m, n ≤ m ∧ ((r.state m).ep.conns c).alive = false := by
    cases h3 : ((r.state n).ep.conns c).alive with
    | false => exact ⟨n, Nat.le_refl _, h3⟩
    | true =>
      exact gone_conn_ends hf hr hb (over_of h1 h2)
        (Rt.Ep.alive_lt (Rt.Ep.good_hist (parts (r.exec n)).1).1.fresh h3)
  refine ⟨m, hm, ((Rt.Ep.dead_iff (parts (r.exec m)).1 c).mp h3).resolve_left fun h => h a ?_⟩
  obtain ⟨t, ht, -⟩ := r.segment hm
  rw [ht, node_app_append]
  exact hc.mono _

/-- **C142.** When the socket is gone and the user of a proxy goes on reading, then in the long run `recv` reports
the end, unless the proxy is dropped. -/
theorem C142_proxy (hf : Node.Fair r) (hr : Node.Read r) (hb : Node.Settles r) {n p i : Nat} {id : InterfaceId}
    {a : Addr} (h1 : (.close, .none) ∈ socket (r.hist n)) (h2 : (.failure, .none) ∈ socket (r.hist n))
    (hg : r.FairTo (· = .app (.proxyRecv p))) (hp : Shown (app (r.hist n)) (.proxying p i id a)) :
    ∃ m, n ≤ m ∧ ((.dropProxy p, .none) ∈ app (r.hist m) ∨ (.proxyRecv p, .closed) ∈ app (r.hist m)) := by
  have e := (parts (r.exec n)).1
  have h3 := ((Rt.Ep.made e).proxy p i id a hp).1
  obtain ⟨m, hm, h4⟩ := gone_conn_ends hf hr hb (over_of h1 h2) ((Rt.Ep.peers e).proxies p h3).1
  obtain ⟨t, ht, -⟩ := r.segment hm
  obtain ⟨t', -, h5⟩ := (epRun r).segment hm
  have h6 : ((r.state m).ep.proxies p).conn = ((r.state n).ep.proxies p).conn := (Rt.Ep.proxies_exec h3 h5).2.2
  have hp' : Shown ((epRun r).hist m) (.proxying p i id a) := by
    rw [epRun_hist, ht, node_app_append]
    exact hp.mono _
  obtain ⟨k, hk, h7⟩ := proxy_told (r := epRun r) (ep_fair hf).route (fair_proxyRecv hg) hp'
    (by show ((r.state m).ep.conns ((r.state m).ep.proxies p).conn).alive = false; rw [h6]; exact h4)
  rw [epRun_hist] at h7
  exact ⟨k, by omega, h7⟩

/-- **C142.** When the socket is gone and the user of a stub goes on reading, then in the long run `recv_from`
reports the end, unless the stub is dropped. -/
theorem C142_stub (hf : Node.Fair r) (ha : ∀ l, r.FairTo (· = .app (.acceptNone l))) (hr : Node.Read r)
    (hb : Node.Settles r) {n k i : Nat} {id : InterfaceId} (h1 : (.close, .none) ∈ socket (r.hist n))
    (h2 : (.failure, .none) ∈ socket (r.hist n)) (hg : r.FairTo (· = .app (.stubRecv k)))
    (hk : Shown (app (r.hist n)) (.serving k i id)) :
    ∃ m, n ≤ m ∧ ((.dropStub k, .none) ∈ app (r.hist m) ∨ (.stubRecv k, .closed) ∈ app (r.hist m)) := by
  have e := (parts (r.exec n)).1
  have h3 := ((Rt.Ep.made e).stub k i id hk).1
  by_cases hd : (.dropStub k, .none) ∈ app (r.hist n)
  · exact ⟨n, Nat.le_refl _, .inl hd⟩
  obtain ⟨m, hm, h4⟩ := gone_lis_ends hf ha hb (over_of h1 h2)
    ((Rt.Ep.fed e).stubs k ((Rt.Ep.stub_open_iff e k).mpr ⟨⟨i, id, hk⟩, hd⟩)).1
  obtain ⟨t, ht, -⟩ := r.segment hm
  obtain ⟨t', -, h5⟩ := (epRun r).segment hm
  have h6 : ((r.state m).ep.stubs k).lis = ((r.state n).ep.stubs k).lis := (Rt.Ep.stub_lis_stays h3 h5).2
  have hk' : Shown ((epRun r).hist m) (.serving k i id) := by
    rw [epRun_hist, ht, node_app_append]
    exact hk.mono _
  obtain ⟨v, hv, h7⟩ := stub_told (r := epRun r) (ep_fair hf).route (fair_stubRecv hg)
    (C104_calls_partial _ (ep_fair hf) (ep_read hr) (ep_settles hb) k) hk'
    (by show ((r.state m).ep.liss ((r.state m).ep.stubs k).lis).alive = false; rw [h6]; exact h4)
  rw [epRun_hist] at h7
  exact ⟨v, by omega, h7⟩

/-- A run in which two steps that change nothing are made in turn for ever. -/
theorem Spec.Endless.loop {σ α ω : Type} {step : σ → α → Option (σ × ω)} {s₀ s : σ} {tr : List (α × ω)} {x y : α × ω}
    (e : Exec step s₀ tr s) (hx : step s x.1 = some (s, x.2)) (hy : step s y.1 = some (s, y.2)) :
    ∃ r : Endless step s₀, r.hist tr.length = tr ∧
      ∀ n, tr.length ≤ n → r.state n = s ∧ r.act n = some (if n % 2 = 0 then x else y) := by
  obtain ⟨r, hr⟩ := Endless.of_exec e
  let ac : Nat → Option (α × ω) := fun n => if n < tr.length then r.act n else some (if n % 2 = 0 then x else y)
  have a1 : ∀ n, n < tr.length → ac n = r.act n := fun n h => if_pos h
  have a2 : ∀ n, tr.length ≤ n → ac n = some (if n % 2 = 0 then x else y) := fun n h => if_neg (by omega)
  refine ⟨⟨r.state, ac, r.start, fun n => ?_⟩, ?_, fun n hn => ⟨(hr n hn).1, a2 n hn⟩⟩
  · by_cases hn : n < tr.length
    · rw [a1 n hn]; exact r.next n
    · rw [a2 n (by omega), (hr n (by omega)).1, (hr (n + 1) (by omega)).1]
      by_cases h : n % 2 = 0
      · simp only [h, if_true]; exact hx
      · simp only [h, if_false]; exact hy
  · refine Eq.trans ?_ (hr _ (Nat.le_refl _)).2.1
    have h2 : ∀ l : List Nat, (∀ n ∈ l, n < tr.length) → l.filterMap ac = l.filterMap r.act := by
      intro l hl
      induction l with
      | nil => rfl
      | cons n l ih =>
        rw [List.filterMap_cons, List.filterMap_cons, a1 n (hl n (by simp)), ih fun m hm => hl m (by simp [hm])]
    exact h2 _ fun n hn => List.mem_range.mp hn

/-- All tasks have ended. -/
def Spec.Node.ended (s : Node.State) : Bool :=
  (Rt.Ep.step true s.ep (.ep true)).isNone && (Rt.Ep.step true s.ep (.ep false)).isNone &&
  (Node.step s .task).isNone &&
  (List.range s.ep.lisCount).all (fun l => !(s.ep.liss l).alive && (Rt.Ep.step true s.ep (.lisShare l)).isNone) &&
  (List.range s.ep.connCount).all (fun c => !(s.ep.conns c).alive && (Rt.Ep.step true s.ep (.route c)).isNone &&
    decide ((s.ep.conns c).out = none)) &&
  (List.range s.ep.stubCount).all (fun k => (Rt.Ep.step true s.ep (.stubStep k)).isNone)

theorem ended_rests {s : Node.State} (hg : Rt.Ep.Good s.ep) (h : Spec.Node.ended s = true) : Rests s := by
  simp only [Spec.Node.ended, Bool.and_eq_true, List.all_eq_true, List.mem_range,
    Option.isNone_iff_eq_none, Bool.not_eq_true', decide_eq_true_eq] at h
  obtain ⟨⟨⟨⟨⟨h1, h2⟩, h3⟩, h4⟩, h5⟩, h6⟩ := h
  have key : ∀ {y}, Rt.Ep.step true s.ep y = none → Node.step s (.app y) = none := by
    intro y hy
    simp [Node.step, hy]
  have hf := hg.fresh
  have hl : ∀ l, (s.ep.liss l).alive = false := by
    intro l
    by_cases hl : l < s.ep.lisCount
    · exact (h4 l hl).1
    · rw [hf.liss l (Nat.not_lt.mp hl)]
  have hc : ∀ c, (s.ep.conns c).alive = false := by
    intro c
    by_cases hl : c < s.ep.connCount
    · exact (h5 c hl).1.1
    · rw [hf.conns c (Nat.not_lt.mp hl)]
  intro x hx
  cases x with
  | task => exact h3
  | app y =>
    cases y with
    | ep ok => cases ok <;> exact key (by assumption)
    | accept l a => exact key (by simp [Rt.Ep.step, hl l])
    | acceptNone l => exact key (by simp [Rt.Ep.step, hl l])
    | lisShare l =>
      refine key ?_
      by_cases hl : l < s.ep.lisCount
      · exact (h4 l hl).2
      · simp [Rt.Ep.step, Rt.Ep.lisShare, hf.liss l (Nat.not_lt.mp hl)]
    | lisCmd l => exact key (by simp [Rt.Ep.step, Rt.Ep.lisCmd, hl l])
    | packet c q => exact key (by simp [Rt.Ep.step, Rt.Ep.packet, hc c])
    | route c =>
      refine key ?_
      by_cases hl : c < s.ep.connCount
      · exact (h5 c hl).1.2
      · simp [Rt.Ep.step, Rt.Ep.route, hf.conns c (Nat.not_lt.mp hl)]
    | connCmd c => exact key (by simp [Rt.Ep.step, Rt.Ep.connCmd, hc c])
    | sent c ok =>
      refine key ?_
      by_cases hl : c < s.ep.connCount
      · simp [Rt.Ep.step, Rt.Ep.sent, (h5 c hl).2]
      · simp [Rt.Ep.step, Rt.Ep.sent, hf.conns c (Nat.not_lt.mp hl)]
    | stubStep k =>
      refine key ?_
      by_cases hl : k < s.ep.stubCount
      · exact h6 k hl
      · simp [Rt.Ep.step, Rt.Ep.stubStep, hf.stubs k (Nat.not_lt.mp hl)]
    | _ => cases hx
  | _ => cases hx

/-- An interface is served and a proxy is made, a peer sends a message, the `Endpoint` is dropped, and the socket
fails. Then the connections and the listener end, and the message is read. -/
def Spec.Node.bothGone : List Node.Action :=
  [.app (.serve ⟨1, 1⟩), .app (.ep true), .app (.ep true), .app (.ep true), .app (.ep true), .app (.ep true),
    .app (.lisCmd 0), .app (.proxy ⟨2, 1⟩ 7), .app (.ep true), .app (.ep true), .app (.ep true), .app (.ep true),
    .app (.ep true), .app (.ep true), .app (.connCmd 0), .datagram 8 (frame Spec.Ep.msgA), .task, .task, .task, .task,
    .app (.accept 0 8), .app (.lisShare 0), .app .close, .app (.ep true), .failure, .app (.packet 0 .closed),
    .app (.packet 1 (.packet (frame Spec.Ep.msgA))), .app (.route 1), .app (.route 1), .app (.route 1),
    .app (.packet 1 .closed), .app (.acceptNone 0), .app (.stubRecv 0)]

/-- The users of a stub and of a proxy go on reading when the socket is gone. -/
example : ∃ (r : Node.Run) (n : Nat), Node.Fair r ∧ (∀ l, r.FairTo (· = .app (.acceptNone l))) ∧ Node.Read r ∧
    Node.Settles r ∧ (.close, .none) ∈ socket (r.hist n) ∧ (.failure, .none) ∈ socket (r.hist n) ∧
    r.FairTo (· = .app (.proxyRecv 0)) ∧ r.FairTo (· = .app (.stubRecv 0)) ∧
    Shown (app (r.hist n)) (.opened 1 8) ∧ Shown (app (r.hist n)) (.proxying 0 1 ⟨2, 1⟩ 7) ∧
    Shown (app (r.hist n)) (.serving 0 0 ⟨1, 1⟩) ∧
    (.dropProxy 0, .none) ∉ app (r.hist n) ∧ (.proxyRecv 0, .closed) ∉ app (r.hist n) ∧
    (.dropStub 0, .none) ∉ app (r.hist n) ∧ (.stubRecv 0, .closed) ∉ app (r.hist n) := by
  obtain ⟨tr, s, e, h⟩ := exec_by (step := Node.step) (s := Node.init) Spec.Node.bothGone
    (fun tr s => Spec.Node.ended s && decide (
      (∀ k, k < s.ep.stubCount → (s.ep.ifaces (s.ep.stubs k).iface).queue.length < 16) ∧
      (∀ p, p < s.ep.proxyCount → (s.ep.ifaces (s.ep.proxies p).iface).queue.length < 16)) &&
      decide ((.close, .none) ∈ socket tr ∧ (.failure, .none) ∈ socket tr) &&
      decide ((.accept 0 8, .opened 1 8) ∈ app tr ∧ (.ep true, .proxying 0 1 ⟨2, 1⟩ 7) ∈ app tr ∧
        (.ep true, .serving 0 0 ⟨1, 1⟩) ∈ app tr) &&
      decide ((.dropProxy 0, .none) ∉ app tr ∧ (.proxyRecv 0, .closed) ∉ app tr ∧
        (.dropStub 0, .none) ∉ app tr ∧ (.stubRecv 0, .closed) ∉ app tr) &&
      decide (((s.ep.proxies 0).alive = true ∧ (s.ep.ifaces (s.ep.proxies 0).iface).queue = [] ∧
        s.ep.ifStrong (s.ep.proxies 0).iface = false) ∧ (s.ep.stubs 0).alive = true ∧ (s.ep.stubs 0).pc = .idle ∧
        (s.ep.ifaces (s.ep.stubs 0).iface).queue = [] ∧ s.ep.ifStrong (s.ep.stubs 0).iface = false))
    (by decide +kernel)
  simp only [Bool.and_eq_true, decide_eq_true_eq] at h
  obtain ⟨⟨⟨⟨⟨h0, h1, h2⟩, h3, h4⟩, h5, h6, h7⟩, h8⟩, ⟨p1, p2, p3⟩, k1, k2, k3, k4⟩ := h
  have hg := (Rt.Ep.good_hist (parts e).1).1
  have hp : Node.step s (.app (.proxyRecv 0)) = some (s, ⟨some .closed, [], []⟩) := by
    simp [Node.step, Rt.Ep.step_of_move (.proxyRecvClosed (dg := true) 0 p1 p2 p3), appCall, still]
  have hk : Node.step s (.app (.stubRecv 0)) = some (s, ⟨some .closed, [], []⟩) := by
    simp [Node.step, Rt.Ep.step_of_move (.stubClosed (dg := true) 0 k1 k2 k3 k4), appCall, still]
  obtain ⟨r, r1, r2⟩ := Endless.loop (x := (_, _)) (y := (_, _)) e hp hk
  have hr := ended_rests hg h0
  have key : ∀ P : Node.Action → Prop, (∀ x, P x → Node.step s x = none) → r.FairTo P := by
    intro P hP hio
    obtain ⟨n, hn, a, o, s', h1, h2⟩ := hio tr.length
    rw [(r2 n hn).1, hP a h1] at h2
    cases h2
  refine ⟨r, tr.length, ⟨key _ ?_, fun l => key _ ?_, fun l => key _ ?_, fun l => key _ ?_, fun l => key _ ?_,
    fun l => key _ ?_, fun l => key _ ?_, fun l => key _ ?_, key _ ?_⟩, fun l => key _ ?_,
    ⟨fun k N => ⟨max N tr.length, Nat.le_max_left .., ?_⟩, fun p N => ⟨max N tr.length, Nat.le_max_left .., ?_⟩⟩,
    ⟨tr.length, ?_⟩, ?_⟩
  · rintro x ⟨ok, rfl⟩; exact hr _ rfl
  · rintro x rfl; exact hr _ rfl
  · rintro x ⟨a, rfl⟩; exact hr _ rfl
  · rintro x rfl; exact hr _ rfl
  · rintro x rfl; exact hr _ rfl
  · rintro x ⟨p, rfl⟩; exact hr _ rfl
  · rintro x (rfl | ⟨ok, rfl⟩) <;> exact hr _ rfl
  · rintro x rfl; exact hr _ rfl
  · rintro x rfl; exact hr _ rfl
  · rintro x rfl; exact hr _ rfl
  · rw [(r2 _ (Nat.le_max_right ..)).1]
    exact fun hk => h1 k (Rt.Ep.stub_lt hg.fresh hk)
  · rw [(r2 _ (Nat.le_max_right ..)).1]
    exact fun hp => h2 p (Rt.Ep.proxy_lt hg.fresh hp)
  · rintro n hn ⟨a, o, h9, h10⟩
    rw [(r2 n hn).2] at h9
    split at h9 <;> cases h9 <;> simp at h10
  · rw [r1]
    refine ⟨h3, h4, fun _ N => ⟨2 * (max N tr.length), by omega, _, ⟨some .closed, [], []⟩, ?_, rfl⟩,
      fun _ N => ⟨2 * (max N tr.length) + 1, by omega, _, ⟨some .closed, [], []⟩, ?_, rfl⟩, ⟨_, h5⟩, ⟨_, h6⟩, ⟨_, h7⟩, h8⟩
    · rw [(r2 _ (by omega)).2, if_pos (by omega)]
    · rw [(r2 _ (by omega)).2, if_neg (by omega)]

end

end Rsomeip
