import Verif.Props.Rt.Home
import Verif.Props.Rt.Possible

/-! # C130: what a remote costs that has closed its TCP connection -/

namespace Rsomeip

open Rt Spec
open Spec.Ep (ConnOpen ConnOver Shown)
open Spec.Node (reads)

section
variable {dg : Bool} {l c : Nat} {a : Addr}

/-- Listener `l` owns connection `c` from `a`, and will not replace it. -/
structure Rt.Ep.Stored (s : Rt.Ep.State) (l c : Nat) (a : Addr) : Prop where
  lis : l < s.lisCount
  conn : c < s.connCount
  addr : (s.conns c).addr = a
  has : (s.liss l).pc = .share c ∨ (s.liss l).conns.get a = some c ∧
    ∀ d, (s.liss l).pc = .share d → d < s.connCount ∧ (s.conns d).addr ≠ a

open Rt.Ep in
theorem Rt.Ep.Stored.step {s s' : Rt.Ep.State} {x : Rt.Ep.Action} {o : Rt.Ep.Obs} (h : Stored s l c a)
    (m : Move dg s x o s') (h1 : x ≠ .accept l a) (h2 : ¬ (x = .lisCmd l ∧ o = .ended))
    (h3 : x ≠ .acceptNone l) : Stored s' l c a := by
  obtain ⟨k1, k2, k3, k4⟩ := h
  refine ⟨m.lis_keep k1, (m.conn_keep k2).1, (m.conn_keep k2).2.trans k3, ?_⟩
  cases m <;> first | exact k4 | grind [upd, newLis, deadLis, newConn, Conn.ended, Map.get_insert]

open Rt.Ep in
theorem stored_exec {t u : Spec.Ep.Trace} {s : Rt.Ep.State}
    (e : Exec (Rt.Ep.step dg) Rt.Ep.init (t ++ (.accept l a, .opened c a) :: u) s)
    (h1 : ∀ o, (.accept l a, o) ∉ u) (h2 : (.lisCmd l, .ended) ∉ u) (h3 : ∀ o, (.acceptNone l, o) ∉ u) :
    Stored s l c a := by
  obtain ⟨s₁, e₁, e'⟩ := e.split
  obtain ⟨s₂, e₂, e₃⟩ := Exec.split (t := [_]) e'
  have hs := single e₂
  have hf := (good_hist e₁).1.fresh
  have start : Stored s₂ l c a := by
    cases move_of_step hs with
    | accept _ _ ha hw =>
      refine ⟨?_, Nat.lt_succ_self _, by simp [upd_same, newConn], .inl (by simp [upd_same])⟩
      apply Decidable.byContradiction
      intro hn
      rw [hf.liss l (Nat.not_lt.mp hn)] at ha
      cases ha
  clear e₁ e₂ hs hf e e'
  induction e₃ with
  | nil => exact start
  | snoc e' hs ih =>
    refine (ih (fun o h => h1 o (List.mem_append_left _ h)) (fun h => h2 (List.mem_append_left _ h))
      fun o h => h3 o (List.mem_append_left _ h)).step (move_of_step hs) ?_ ?_ ?_
    · rintro rfl; exact h1 _ (List.mem_append_right _ (List.mem_singleton_self _))
    · rintro ⟨rfl, rfl⟩; exact h2 (List.mem_append_right _ (List.mem_singleton_self _))
    · rintro rfl; exact h3 _ (List.mem_append_right _ (List.mem_singleton_self _))

end

open Spec.TcpNode Rt.TcpNode

/-- **C130 is false.** A connection that was accepted runs, whether or not the remote has closed its side
(nothing is asked about that here), until the operating system reports an error on it, the listener ends, or
another connection from the same address is accepted. -/
theorem C130_stays {tr : Spec.TcpNode.Trace} {s : Rt.TcpNode.State} {l c : Nat} {a : Addr}
    {t u : Spec.Ep.Trace} (e : Exec TcpNode.step TcpNode.init tr s)
    (htr : app tr = t ++ (.accept l a, .opened c a) :: u) (h1 : ∀ o, (.accept l a, o) ∉ u)
    (h2 : (.lisCmd l, .ended) ∉ u) (h3 : ∀ o, (.acceptNone l, o) ∉ u) (h4 : ¬ Broke c tr) :
    ConnOpen c (app tr) := by
  have e1 := part e
  have hs : Rt.Ep.Stored s.ep l c a := stored_exec (htr ▸ e1) h1 h2 h3
  refine (Rt.Ep.conn_open_iff e1 c).mp (conn_lasts e1 (.inr (.inl ⟨l, ?_⟩)) fun x hx => ?_)
  · rw [Rt.Ep.Lis.holdsConn_iff]
    exact hs.has.elim .inr fun h => .inl ⟨a, Map.mem_of_get h.1⟩
  · exact ⟨fun h => h4 (ends_broke e hx (.inl h)), fun h => h4 (ends_broke e hx (.inr h))⟩

theorem eof_stays (r : TcpNode.Run) {c n m : Nat} (hm : n ≤ m) (h : (r.state n).eof c = true) :
    (r.state m).eof c = true ∧ arrived c (r.hist m) = arrived c (r.hist n) := by
  induction m, hm using Nat.le_induction with
  | base => exact ⟨h, rfl⟩
  | succ m hm ih =>
    obtain ⟨ih1, ih2⟩ := ih
    rw [r.hist_succ, ← ih2, arrived, List.flatMap_append]
    rcases r.move m with ⟨h5, h6⟩ | ⟨a, o, h5, h6⟩
    · rw [h5, h6]
      exact ⟨ih1, by simp [arrived]⟩
    · rw [h5]
      generalize r.state (m + 1) = z at h6
      cases move_of_step h6 <;> grind [upd, arrived]

/-- **C130 is false.** In the long run, after the remote has closed its side of a connection, its task reads
nothing from it, again and again, for ever, unless it ends. -/
theorem C130_spins {r : TcpNode.Run} (hf : TcpNode.Fair r) (hr : TcpNode.Read r) (hb : TcpNode.Settles r)
    {c n : Nat} {o : TcpNode.Obs} (hs : (.shut c, o) ∈ r.hist n) :
    (∃ m, ConnOver c (app (r.hist m))) ∨
      ∀ N, ∃ m x o', N ≤ m ∧ r.act m = some x ∧ x.2.ep = some (.packet c (.packet []), o') := by
  obtain ⟨n, -, hs⟩ := List.mem_filterMap.mp hs
  have heof : (r.state (n + 1)).eof c = true ∧ c < (r.state (n + 1)).ep.connCount := by
    rcases r.move n with ⟨h5, _⟩ | ⟨a, o, h5, h6⟩
    · rw [hs] at h5; cases h5
    · rw [hs] at h5
      cases h5
      generalize r.state (n + 1) = z at h6
      cases move_of_step h6 with
      | shut _ hc => exact ⟨upd_same .., hc⟩
  by_cases hover : ∃ m, ConnOver c (app (r.hist m))
  · exact .inl hover
  refine .inr fun N => Classical.byContradiction fun hN => ?_
  have alive : ∀ m, n < m → ((r.state m).ep.conns c).alive = true := by
    intro m hm
    cases ha : ((r.state m).ep.conns c).alive with
    | true => rfl
    | false =>
      refine absurd ⟨m, Rt.Ep.over_of_dead (part (r.exec m)) ?_ ha⟩ hover
      obtain ⟨a, x, hx⟩ := (Rt.Ep.conn_shown (part (r.exec (n + 1))) c).mp heof.2
      obtain ⟨t, h1, -⟩ := r.segment (show n + 1 ≤ m by omega)
      refine (Rt.Ep.conn_shown (part (r.exec m)) c).mpr ⟨a, x, ?_⟩
      rw [h1, tcp_app_append]
      exact List.mem_append_left _ hx
  obtain ⟨m, h5, h6⟩ := r.grows (hf.read c) (N := max N (n + 1))
    (fun m => (reads c (app (r.hist m))).flatten.length)
    (fun m hm => by
      rw [r.hist_succ, tcp_app_append, reads_append, List.flatten_append, List.length_append]
      omega)
    (fun m hm hd => by
      obtain ⟨x, o, h3, k, rfl⟩ := hd
      rw [r.hist_succ, tcp_app_append, reads_append, List.flatten_append,
        List.length_append, h3, Option.toList_some]
      rcases r.move m with ⟨h5, _⟩ | ⟨a', o', h5, h6⟩
      · rw [h3] at h5; cases h5
      · rw [h3] at h5
        cases h5
        generalize r.state (m + 1) = z at h6
        cases move_of_step h6 with
        | broken _ _ _ _ ha => rcases ha with ha | ha <;> cases ha
        | read _ _ e o hp he =>
          suffices 0 < (((r.state m).inb c).take (min k 1400)).length by
            simpa [app, reads] using this
          refine List.length_pos_iff.mpr fun h => hN ⟨m, _, o, by omega, h3, ?_⟩
          rw [h])
    (fun M => by
      obtain ⟨m, h5, h6⟩ := Rt.Ep.waits_again (ep_fair hf) (ep_read hr) (ep_settles hb) c (max M (n + 1))
      have h7 := alive m (by omega)
      have h6 : ((r.state m).ep.conns c).pc = .wait := h6.resolve_left (by
        intro h
        rw [show ((epRun r).state m) = (r.state m).ep from rfl, h7] at h
        cases h)
      have h8 := (eof_stays r (show n + 1 ≤ m by omega) heof.1).1
      refine ⟨m, by omega, .read c (.read 1), ?_⟩
      rcases receive_packet (((r.state m).inb c).take 1) with ⟨ms, h1, -⟩ | ⟨⟨er, h1⟩, -⟩ <;>
        simp [ReadStep, TcpNode.step, TcpNode.read, h7, h6, h8, possible, Tcp.recv, Tcp.readSize, does,
          Rt.Ep.step, Rt.Ep.packet, h1])
    ((arrived c (r.hist (n + 1))).length + 1)
  have h7 := congrArg List.length (in_hist (r.exec m) c)
  rw [(eof_stays r (show n + 1 ≤ m by omega) heof.1).2, List.length_append] at h7
  omega

/-- What is needed for the next client: the listener waits for it, and nobody is in a call. -/
structure Rt.TcpNode.Waiting (s : Rt.TcpNode.State) (n : Nat) : Prop where
  lis : (s.ep.liss 0).alive = true
  pc : (s.ep.liss 0).pc = .wait
  stubs : ∀ k, (s.ep.stubs k).pc = .idle
  count : s.ep.connCount = n
  conns : ∀ c, c < n → (s.ep.conns c).alive = true

theorem client {s : Rt.TcpNode.State} {n : Nat} (h : Waiting s n) : ∃ s', Waiting s' (n + 1) ∧
    Exec TcpNode.step s [(.app (.accept 0 (100 + n)), ⟨some (.accept 0 (100 + n), .opened n (100 + n)), none⟩),
      (.app (.lisShare 0), ⟨some (.lisShare 0, .none), none⟩), (.shut n, ⟨none, none⟩)] s' := by
  obtain ⟨h1, h2, h3, h4, h5⟩ := h
  let e₁ : Rt.Ep.State := { s.ep with
    conns := upd s.ep.conns n (Rt.Ep.newConn (100 + n)), connCount := n + 1,
    liss := upd s.ep.liss 0 { s.ep.liss 0 with pc := .share n } }
  let e₂ : Rt.Ep.State := { e₁ with
    peers := (e₁.peers.insert (e₁.conns n).addr n).2,
    liss := upd e₁.liss 0
      { e₁.liss 0 with conns := ((e₁.liss 0).conns.insert (e₁.conns n).addr n).2, pc := .wait } }
  have k1 : TcpNode.step s (.app (.accept 0 (100 + n))) =
      some ({ s with ep := e₁ }, ⟨some (.accept 0 (100 + n), .opened n (100 + n)), none⟩) := by
    simp [TcpNode.step, does, Rt.Ep.step, h1, h2, h4, e₁]
  have k2 : TcpNode.step { s with ep := e₁ } (.app (.lisShare 0)) =
      some ({ s with ep := e₂ }, ⟨some (.lisShare 0, .none), none⟩) := by
    simp [TcpNode.step, does, Rt.Ep.step, Rt.Ep.lisShare, Rt.Ep.State.peerLocked, upd_same, h3, e₁, e₂]
  have k3 : TcpNode.step { s with ep := e₂ } (.shut n) =
      some ({ s with ep := e₂, eof := upd s.eof n true }, ⟨none, none⟩) := by
    simp [TcpNode.step, e₁, e₂]
  refine ⟨_, ?_, ((Exec.nil.snoc k1).snoc k2).snoc k3⟩
  constructor
  · simp [e₁, e₂, upd_same, h1]
  · simp [e₂, upd_same]
  · exact h3
  · rfl
  · intro c hc
    by_cases hcn : c = n
    · simp [e₁, e₂, hcn, upd_same, Rt.Ep.newConn]
    · have := h5 c (by omega)
      simpa [e₁, e₂, upd_ne _ _ hcn] using this

/-- **C130 is false.** However many remotes have connected and closed their connections while one interface was served, all the connections are still there. -/
theorem C130_many (n : Nat) : ∃ tr s, Exec TcpNode.step TcpNode.init tr s ∧
    Spec.Ep.requests (app tr) = [.serve ⟨1, 1⟩] ∧
    ∀ c, c < n → ConnOpen c (app tr) ∧ ∃ o, (.shut c, o) ∈ tr := by
  suffices key : ∃ tr s, Exec TcpNode.step TcpNode.init tr s ∧ Waiting s n ∧
      Spec.Ep.requests (app tr) = [.serve ⟨1, 1⟩] ∧ ∀ c, c < n → ∃ o, (.shut c, o) ∈ tr by
    obtain ⟨tr, s, e, hw, h1, h2⟩ := key
    exact ⟨tr, s, e, h1, fun c hc => ⟨(Rt.Ep.conn_open_iff (part e) c).mp (hw.conns c hc), h2 c hc⟩⟩
  induction n with
  | zero =>
    obtain ⟨tr, s, e, h⟩ := exec_by (step := TcpNode.step) (s := TcpNode.init)
      [.app (.serve ⟨1, 1⟩), .app (.ep true), .app (.ep true), .app (.ep true), .app (.ep true),
        .app (.ep true), .app (.lisCmd 0)]
      (fun tr s => decide ((s.ep.liss 0).alive = true ∧ (s.ep.liss 0).pc = .wait ∧
        (∀ k, k < s.ep.stubCount → (s.ep.stubs k).pc = .idle) ∧ s.ep.connCount = 0 ∧
        Spec.Ep.requests (app tr) = [.serve ⟨1, 1⟩])) (by decide +kernel)
    obtain ⟨h1, h2, h3, h4, h5⟩ := of_decide_eq_true h
    refine ⟨tr, s, e, ⟨h1, h2, fun k => ?_, h4, fun c hc => absurd hc (Nat.not_lt_zero c)⟩, h5,
      fun c hc => absurd hc (Nat.not_lt_zero c)⟩
    exact (Rt.Ep.idle_iff (part e) k).mpr (idle_all (part e) h3 k)
  | succ n ih =>
    obtain ⟨tr, s, e, hw, h1, h2⟩ := ih
    obtain ⟨s', hw', e'⟩ := client hw
    refine ⟨_, s', e.append e', hw', ?_, fun c hc => ?_⟩
    · rw [tcp_app_append, Spec.Ep.requests, List.filterMap_append, ← Spec.Ep.requests, h1]
      rfl
    · rcases Nat.lt_succ_iff_lt_or_eq.mp hc with hc | rfl
      · obtain ⟨o, ho⟩ := h2 c hc
        exact ⟨o, List.mem_append_left _ ho⟩
      · exact ⟨⟨none, none⟩, List.mem_append_right _ (by simp)⟩

/-- A client connects and closes its connection. -/
def Spec.TcpNode.leaves : List TcpNode.Action :=
  [.app (.serve ⟨1, 1⟩), .app (.ep true), .app (.ep true), .app (.ep true), .app (.ep true),
    .app (.ep true), .app (.lisCmd 0), .app (.accept 0 8), .app (.lisShare 0), .shut 0]

/-- The client has left, and nothing has been reported on its connection. -/
example : ∃ tr s t u, Exec TcpNode.step TcpNode.init tr s ∧
    app tr = t ++ (.accept 0 8, .opened 0 8) :: u ∧ (∀ o, (.accept 0 8, o) ∉ u) ∧
    (.lisCmd 0, .ended) ∉ u ∧ (∀ o, (.acceptNone 0, o) ∉ u) ∧ ¬ Broke 0 tr ∧ ∃ o, (.shut 0, o) ∈ tr := by
  obtain ⟨tr, s, e, h⟩ := exec_by (step := TcpNode.step) (s := TcpNode.init) leaves
    (fun tr _ => decide (app tr = (app tr).take 7 ++ (.accept 0 8, .opened 0 8) :: [(.lisShare 0, .none)] ∧
      (∀ x ∈ tr, x.1 ≠ .read 0 .broken ∧ x.1 ≠ .read 0 .failed ∧ x.1 ≠ .write 0 .broken ∧
        x.1 ≠ .write 0 .failed) ∧ (.shut 0, ⟨none, none⟩) ∈ tr)) (by decide +kernel)
  obtain ⟨h1, h2, h3⟩ := of_decide_eq_true h
  refine ⟨tr, s, _, _, e, h1, by simp, by simp, by simp, ?_, _, h3⟩
  rintro (⟨x, hx, h | h⟩ | ⟨x, hx, h | h⟩)
  · exact (h2 x hx).1 h
  · exact (h2 x hx).2.1 h
  · exact (h2 x hx).2.2.1 h
  · exact (h2 x hx).2.2.2 h

/-- Nothing that goes on by itself ends a connection that a listener owns which has a stub. -/
theorem goes_stored {s s' : Rt.TcpNode.State} {x : TcpNode.Action} {o : TcpNode.Obs} {l c k : Nat} {a : Addr}
    (hg : Rt.Ep.Good s.ep) (hs : TcpNode.step s x = some (s', o)) (hx : TcpNode.Goes x)
    (h : Rt.Ep.Stored s.ep l c a) (hk : (s.ep.stubs k).alive = true) (hl : (s.ep.stubs k).lis = l) :
    Rt.Ep.Stored s'.ep l c a ∧ (s'.ep.stubs k).alive = true ∧ (s'.ep.stubs k).lis = l := by
  have key : ∀ {y w e}, Rt.Ep.step false s.ep y = some (e, w) → (∀ b, y ≠ .accept l b) → y ≠ .acceptNone l →
      y ≠ .dropStub k → Rt.Ep.Stored e l c a ∧ (e.stubs k).alive = true ∧ (e.stubs k).lis = l := by
    intro y w e he h1 h2 h3
    have m := Rt.Ep.move_of_step he
    have hlt := Rt.Ep.stub_lt hg.fresh hk
    refine ⟨h.step m (h1 a) ?_ h2, m.stub_lives hk h3 hlt, (m.stub_keep hlt).2.2.trans hl⟩
    rintro ⟨rfl, rfl⟩
    cases m with
    | lisEnd _ _ _ hn =>
      rw [(Rt.Ep.lisStrong_iff hg.fresh l).mpr (.inr ⟨k, hk, hl⟩)] at hn
      cases hn
  cases move_of_step hs with
  | app y e w _ _ he =>
    refine key he ?_ ?_ ?_
    · rintro b rfl; exact hx
    · rintro rfl; exact hx
    · rintro rfl; exact hx
  | arrive => exact ⟨h, hk, hl⟩
  | shut => exact ⟨h, hk, hl⟩
  | wait => exact ⟨h, hk, hl⟩
  | taken => exact ⟨h, hk, hl⟩
  | broken _ _ _ _ _ he => exact key he nofun nofun nofun
  | read _ _ _ _ _ he => exact key he nofun nofun nofun
  | done _ _ _ _ _ _ _ _ he => exact key he nofun nofun nofun
  | failed _ _ _ _ _ _ _ _ _ he => exact key he nofun nofun nofun

/-- **C130 is false.** A client connects and closes its connection. Nobody is passed over, nobody's queue is
full, no error is reported. The server reads nothing from the connection, again and again, for ever. -/
theorem C130_false : ∃ r : TcpNode.Run, TcpNode.Fair r ∧ TcpNode.Read r ∧ TcpNode.Settles r ∧
    (∃ n o, (.shut 0, o) ∈ r.hist n) ∧ (∀ n, ¬ Broke 0 (r.hist n)) ∧
    (∀ n, ¬ ConnOver 0 (app (r.hist n))) ∧
    ∀ N, ∃ m x o', N ≤ m ∧ r.act m = some x ∧ x.2.ep = some (.packet 0 (.packet []), o') := by
  obtain ⟨tr, s, e, h⟩ := exec_by (step := TcpNode.step) (s := TcpNode.init) leaves
    (fun tr s => decide (app tr = (app tr).take 7 ++ (.accept 0 8, .opened 0 8) :: [(.lisShare 0, .none)] ∧
      (∀ x ∈ tr, x.1 ≠ .read 0 .broken ∧ x.1 ≠ .read 0 .failed ∧ x.1 ≠ .write 0 .broken ∧
        x.1 ≠ .write 0 .failed) ∧ (.shut 0, ⟨none, none⟩) ∈ tr ∧ (s.ep.stubs 0).alive = true ∧
        (s.ep.stubs 0).lis = 0 ∧ ∀ k, k < s.ep.stubCount → (s.ep.stubs k).pc = .idle)) (by decide +kernel)
  obtain ⟨h1, h2, h3, h4, h5, h6⟩ := of_decide_eq_true h
  obtain ⟨r, r1, r2, r3, r4, r5, r6⟩ := C129_tcp_goes e (idle_all (part e) h6)
  have goes : ∀ m, tr.length ≤ m → ∃ u, r.hist m = tr ++ u ∧ ∀ x ∈ u, TcpNode.Goes x.1 := by
    intro m hm
    obtain ⟨u, hu, -, hx⟩ := r.segment_acts hm
    refine ⟨u, by rw [hu, r5], fun x hx' => ?_⟩
    obtain ⟨t₁, t₂, ht⟩ := List.append_of_mem hx'
    obtain ⟨j, j1, j2, -⟩ := hx t₁ x t₂ ht
    exact r6 j x j1 j2
  have later : ∀ m, ∃ m', m ≤ m' ∧ tr.length ≤ m' := fun m => ⟨max m tr.length, by omega, by omega⟩
  have nb : ¬ Broke 0 tr := by
    rintro (⟨x, hx, h | h⟩ | ⟨x, hx, h | h⟩)
    · exact (h2 x hx).1 h
    · exact (h2 x hx).2.1 h
    · exact (h2 x hx).2.2.1 h
    · exact (h2 x hx).2.2.2 h
  have unbroken : ∀ m, tr.length ≤ m → ¬ Broke 0 (r.hist m) := by
    intro m hm hb
    obtain ⟨u, hu, hx⟩ := goes m hm
    rw [hu] at hb
    exact nb (goes_unbroken hx hb)
  have start : Rt.Ep.Stored s.ep 0 0 8 := by
    have e1 := part e
    rw [h1] at e1
    exact stored_exec e1 (by simp) (by simp) (by simp)
  have kept : ∀ m, tr.length ≤ m → Rt.Ep.Stored (r.state m).ep 0 0 8 ∧
      ((r.state m).ep.stubs 0).alive = true ∧ ((r.state m).ep.stubs 0).lis = 0 := by
    intro m hm
    induction m, hm using Nat.le_induction with
    | base => rw [r4]; exact ⟨start, h4, h5⟩
    | succ m hm ih =>
      rcases r.move m with ⟨_, h6⟩ | ⟨a, o, h7, h8⟩
      · rw [h6]; exact ih
      · exact goes_stored (Rt.Ep.good_hist (part (r.exec m))).1 h8 (r6 m _ hm h7) ih.1 ih.2.1 ih.2.2
  have opened : ∀ m, tr.length ≤ m → ConnOpen 0 (app (r.hist m)) := by
    intro m hm
    have e1 := part (r.exec m)
    refine (Rt.Ep.conn_open_iff e1 0).mp (conn_lasts e1 (.inr (.inl ⟨0, ?_⟩)) fun x hx => ?_)
    · rw [Rt.Ep.Lis.holdsConn_iff]
      exact (kept m hm).1.has.elim .inr fun h => .inl ⟨8, Map.mem_of_get h.1⟩
    · exact ⟨fun h => unbroken m hm (ends_broke (r.exec m) hx (.inl h)),
        fun h => unbroken m hm (ends_broke (r.exec m) hx (.inr h))⟩
  have notOver : ∀ n, ¬ ConnOver 0 (app (r.hist n)) := by
    intro n ho
    obtain ⟨m, m1, m2⟩ := later n
    obtain ⟨t, h7, -⟩ := r.segment m1
    have := over_grows (app t) ho
    rw [← tcp_app_append, ← h7] at this
    exact (opened m m2).2 this
  have shut : (.shut 0, ⟨none, none⟩) ∈ r.hist tr.length := by rw [r5]; exact h3
  refine ⟨r, r1, r2, r3, ⟨tr.length, _, shut⟩, fun n hb => ?_, notOver, ?_⟩
  · obtain ⟨m, m1, m2⟩ := later n
    obtain ⟨t, h7, -⟩ := r.segment m1
    refine unbroken m m2 ?_
    rw [h7]
    rcases hb with ⟨x, hx, h⟩ | ⟨x, hx, h⟩
    · exact .inl ⟨x, List.mem_append_left _ hx, h⟩
    · exact .inr ⟨x, List.mem_append_left _ hx, h⟩
  · exact (C130_spins r1 r2 r3 shut).resolve_left fun ⟨m, hm⟩ => notOver m hm

/-- **C130.** If the operating system reports an error on a connection, it is gone. -/
theorem C130_error_partial {tr : Spec.TcpNode.Trace} {s : Rt.TcpNode.State} {c : Nat}
    (e : Exec TcpNode.step TcpNode.init tr s) (h : Broke c tr) : ConnOver c (app tr) := by
  have key : ∃ t x u, tr = t ++ x :: u ∧ (x.1 = .read c .broken ∨ x.1 = .read c .failed ∨
      x.1 = .write c .broken ∨ x.1 = .write c .failed) := by
    rcases h with ⟨x, hx, h⟩ | ⟨x, hx, h⟩ <;> obtain ⟨t, u, rfl⟩ := List.append_of_mem hx
    · exact ⟨t, x, u, rfl, h.elim .inl fun h => .inr (.inl h)⟩
    · exact ⟨t, x, u, rfl, .inr (.inr h)⟩
  obtain ⟨t, ⟨x, o⟩, u, rfl, hx⟩ := key
  rw [List.append_cons] at e ⊢
  rw [tcp_app_append]
  refine over_grows _ ?_
  obtain ⟨s₂, e₂, -⟩ := e.split
  obtain ⟨s₁, e₁, hs⟩ := e₂.last
  have hg := (Rt.Ep.good_hist (part e₁)).1
  have closed : ∀ {w e}, Rt.Ep.step false s₁.ep (.packet c .closed) = some (e, w) →
      c < e.connCount ∧ (e.conns c).alive = false := by
    intro w e he
    simp only [Rt.Ep.step, Rt.Ep.packet, receive] at he
    split at he
    · rename_i h
      cases he
      exact ⟨Rt.Ep.alive_lt hg.fresh h.1, by simp [upd_same, Rt.Ep.Conn.ended]⟩
    · cases he
  have unsent : ∀ {w e}, Rt.Ep.step false s₁.ep (.sent c false) = some (e, w) →
      c < e.connCount ∧ (e.conns c).alive = false := by
    intro w e he
    have m := Rt.Ep.move_of_step he
    cases m with
    | sentFail _ b ho =>
      refine ⟨?_, by simp [upd_same, Rt.Ep.Conn.ended]⟩
      apply Decidable.byContradiction
      intro hn
      rw [hg.fresh.conns c (Nat.not_lt.mp hn)] at ho
      cases ho
  suffices dead : c < s₂.ep.connCount ∧ (s₂.ep.conns c).alive = false from
    Rt.Ep.over_of_dead (part e₂) dead.1 dead.2
  clear e₂ e h
  rcases hx with hx | hx | hx | hx <;> dsimp only at hx <;> subst hx
  · cases move_of_step hs with
    | broken _ _ _ _ _ he => exact closed he
  · cases move_of_step hs with
    | broken _ _ _ _ _ he => exact closed he
  · cases move_of_step hs with
    | taken _ _ _ _ _ hw => simp [Tcp.send] at hw
    | done _ _ _ _ _ _ _ hw => simp [Tcp.send] at hw
    | failed _ _ _ _ _ _ _ _ _ he => exact unsent he
  · cases move_of_step hs with
    | taken _ _ _ _ _ hw => simp only [Tcp.send] at hw; split at hw <;> cases hw
    | done _ _ _ _ _ _ _ hw => simp only [Tcp.send] at hw; split at hw <;> cases hw
    | failed _ _ _ _ _ _ _ _ _ he => exact unsent he

/-- The client is cut off: reading fails. -/
example : ∃ tr s, Exec TcpNode.step TcpNode.init tr s ∧ Broke 0 tr := by
  obtain ⟨tr, s, e, h⟩ := exec_by (step := TcpNode.step) (s := TcpNode.init) (leaves ++ [.read 0 .failed])
    (fun tr _ => decide ((.read 0 .failed, ⟨some (.packet 0 .closed, .ended), none⟩) ∈ tr)) (by decide +kernel)
  exact ⟨tr, s, e, .inl ⟨_, of_decide_eq_true h, .inr rfl⟩⟩

end Rsomeip
