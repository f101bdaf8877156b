import Verif.Props.Rt.Possible
import Verif.Props.Rt.Lifetime

/-! # C131: in the long run, dropping everything ends everything, whatever still arrives -/

namespace Rsomeip

open Rt Rt.Ep Spec Spec.Ep

variable {dg : Bool}

/-- Steps that are possible until something holds, and bring it nearer, make it hold in the end. -/
theorem _root_.Rsomeip.Spec.Ep.Run.leads (r : Run dg) {P : Action → Prop} (hf : r.FairTo P) {N : Nat}
    (D : State → Prop) (f : State → Nat)
    (h1 : ∀ m, N ≤ m → ¬ D (r.state m) → Enabled dg (r.state m) P)
    (h2 : ∀ m, N ≤ m → f (r.state (m + 1)) ≤ f (r.state m))
    (h3 : ∀ m, N ≤ m → ¬ D (r.state m) → r.Does m P → f (r.state (m + 1)) < f (r.state m)) :
    ∃ m, N ≤ m ∧ D (r.state m) := by
  apply Classical.byContradiction
  intro hn
  have no : ∀ m, N ≤ m → ¬ D (r.state m) := fun m hm hd => hn ⟨m, hm, hd⟩
  have does := hf fun M => ⟨max M N, Nat.le_max_left .., h1 _ (Nat.le_max_right ..) (no _ (Nat.le_max_right ..))⟩
  have down : ∀ n m, N ≤ n → n ≤ m → f (r.state m) ≤ f (r.state n) := by
    intro n m hN hm
    induction m, hm using Nat.le_induction with
    | base => exact Nat.le_refl _
    | succ m hm ih => exact Nat.le_trans (h2 m (by omega)) ih
  suffices key : ∀ K, ∃ m, N ≤ m ∧ f (r.state m) + K ≤ f (r.state N) by
    obtain ⟨m, _, h⟩ := key (f (r.state N) + 1)
    omega
  intro K
  induction K with
  | zero => exact ⟨N, Nat.le_refl _, Nat.le_refl _⟩
  | succ K ih =>
    obtain ⟨m, hm, h⟩ := ih
    obtain ⟨j, hj, hd⟩ := does m
    have := h3 j (by omega) (no j (by omega)) hd
    have := down m j hm hj
    exact ⟨j + 1, by omega, by omega⟩

/-- What the endpoint task has still to do when everything has been dropped. -/
def epLeft (s : State) : Nat :=
  2 * s.cmds.length + match s.pc with
    | .stopped => 0
    | .idle => 1
    | _ => 2

theorem Quiet.calls {s : State} (h : Quiet s) (he : Ended s) (k : Nat) :
    (s.stubs k).pc = .idle ∧ (s.stubs k).conns = .empty :=
  ⟨(he.stubs k (h.stubs k)).2, (he.stubs k (h.stubs k)).1⟩

theorem Quiet.weak {s : State} (h : Quiet s) (hf : Fresh s) (he : Ended s) : s.epStrong = false := by
  refine Bool.eq_false_iff.mpr fun hs => ?_
  rcases (epStrong_iff hf).mp hs with hs | ⟨k, a, m, hs | ⟨_, hs⟩ | ⟨_, hs⟩⟩
  · rw [h.handles] at hs; cases hs
  all_goals rw [(h.calls he k).1] at hs; cases hs

theorem Quiet.left {s s' : State} {a : Action} {o : Obs} (h : Quiet s) (hf : Fresh s) (he : Ended s)
    (m : Move dg s a o s') : epLeft s' ≤ epLeft s ∧ (EpStep a → epLeft s' < epLeft s) := by
  have h6 := fun k => (h.calls he k).1
  have h9 := h.weak hf he
  obtain ⟨h1, h2, h3, h4, h5⟩ := h
  clear he hf
  cases m <;>
    first
    | exact ⟨Nat.le_refl _, nofun⟩
    | (exfalso; simp_all [EpPc.current, waiting]; done)
    | (simp_all [epLeft, EpStep]; done)
    | (simp_all [epLeft, EpStep]; omega)

theorem Quiet.ep_can {s : State} (h : Quiet s) (hf : Fresh s) (he : Ended s) (hp : s.pc ≠ .stopped) :
    Enabled dg s EpStep := by
  have can : ∀ {ok s' o}, Move dg s (.ep ok) o s' → Enabled dg s EpStep :=
    fun m => ⟨_, _, _, ⟨_, rfl⟩, step_of_move m⟩
  have h4 := h.pc
  cases hpc : s.pc with
  | stopped => exact absurd hpc hp
  | idle =>
    cases hc : s.cmds with
    | nil => exact can (.epStop true hpc hc (h.weak hf he))
    | cons x q =>
      cases x with
      | serve id => exact can (.epServe true id q hpc hc)
      | proxy id a => exact can (.epProxy true id a q hpc hc)
      | connect k a t => exact can (.epConnect true k a t q hpc hc)
  | connect k a t =>
    cases dg with
    | true => exact can (.connectOk k a t hpc rfl)
    | false => exact can (.connectStale true k a t hpc nofun (by
        rintro ⟨b, m, hk⟩
        rw [(h.calls he k).1] at hk
        cases hk))
  | _ => rw [hpc] at h4; cases h4

theorem stopped_stays {s s' : State} {a : Action} {o : Obs} (m : Move dg s a o s') (h : s.pc = .stopped) :
    s'.pc = .stopped := by
  cases m <;> first | exact h | (rw [h] at *; contradiction) | simp_all

/-- The task has ended: listeners get no commands, and there are no new ones. -/
theorem lis_left {s s' : State} {a : Action} {o : Obs} (m : Move dg s a o s') (h : s.pc = .stopped) (l : Nat) :
    s'.lisCount = s.lisCount ∧ (s'.liss l).cmds.length ≤ (s.liss l).cmds.length ∧
      ((s.liss l).alive = false → (s'.liss l).alive = false) ∧
      (a = .lisCmd l → (s'.liss l).alive = false ∨ (s'.liss l).cmds.length < (s.liss l).cmds.length) := by
  cases m <;> first | exact ⟨rfl, Nat.le_refl _, id, nofun⟩ | grind [upd, deadLis]

/-- What a connection has still to do when everything has been dropped. -/
def connLeft (s : State) (c : Nat) : Nat :=
  2 * (s.conns c).cmds.length + if (s.conns c).out = none then 0 else 1

/-- The task and the listeners have ended: connections get no commands, and there are no new ones. -/
theorem Quiet.conn_left {s s' : State} {a : Action} {o : Obs} (h : Quiet s) (he : Ended s)
    (m : Move dg s a o s') (hp : s.pc = .stopped) (hl : ∀ l, (s.liss l).alive = false) (c : Nat) :
    s'.connCount = s.connCount ∧ connLeft s' c ≤ connLeft s c ∧
      ((s.conns c).alive = false → (s'.conns c).alive = false) ∧
      (SendStep c a → (s'.conns c).alive = false ∨ connLeft s' c < connLeft s c) := by
  have h6 := fun k => (h.calls he k).1
  obtain ⟨h1, h2, h3, h4, h5⟩ := h
  clear he
  unfold connLeft SendStep
  cases m <;> first
    | exact ⟨rfl, Nat.le_refl _, id, nofun⟩
    | (exfalso; simp_all; done)
    | (simp_all; done)
    | grind [upd, Conn.ended]

theorem run_ends (r : Run dg) (hf : r.Fair) {n : Nat} (hq : Quiet (r.state n)) :
    ∃ m, n ≤ m ∧ ∀ j, m ≤ j → Spec.Ep.Over (r.state j) := by
  have good : ∀ m, Good (r.state m) := fun m => (good_hist (r.exec m)).1
  have quiet : ∀ m, n ≤ m → Quiet (r.state m) := r.stays hq fun j a o s s' _ _ hs h m => by
    subst hs
    exact h.step (good j).fresh (good j).ended m
  -- a step that is made is a move
  have moves : ∀ {m} {Q : State → State → Prop}, (∀ s, Q s s) →
      (∀ a o s', Move dg (r.state m) a o s' → Q (r.state m) s') → Q (r.state m) (r.state (m + 1)) := by
    intro m Q h1 h2
    rcases r.move m with ⟨_, h⟩ | ⟨a, o, _, h⟩
    · rw [h]; exact h1 _
    · exact h2 a o _ (move_of_step h)
  have does : ∀ {m P}, r.Does m P → ∃ a o, P a ∧ Move dg (r.state m) a o (r.state (m + 1)) := by
    rintro m P ⟨a, o, h1, h2⟩
    rcases r.move m with ⟨h, _⟩ | ⟨a', o', h, h3⟩
    · rw [h] at h1; cases h1
    · rw [h] at h1
      cases h1
      exact ⟨a, o, h2, move_of_step h3⟩
  -- the endpoint task
  obtain ⟨n₁, l₁, q₁⟩ := r.leads hf.ep (N := n) (fun s => s.pc = .stopped) epLeft
    (fun m hm hp => (quiet m hm).ep_can (good m).fresh (good m).ended hp)
    (fun m hm => moves (Q := fun s s' => epLeft s' ≤ epLeft s) (fun _ => Nat.le_refl _) fun a o s' mv =>
      ((quiet m hm).left (good m).fresh (good m).ended mv).1)
    (fun m hm _ hd => by
      obtain ⟨a, o, h1, h2⟩ := does hd
      exact ((quiet m hm).left (good m).fresh (good m).ended h2).2 h1)
  have stopped : ∀ m, n₁ ≤ m → (r.state m).pc = .stopped := r.stays q₁ fun j a o s s' _ _ _ h m =>
    stopped_stays m h
  -- the listeners
  have lisDead : ∀ l m j, n₁ ≤ m → m ≤ j → ((r.state m).liss l).alive = false →
      ((r.state j).liss l).alive = false := by
    intro l m j hm hj h
    induction j, hj using Nat.le_induction with
    | base => exact h
    | succ j hj ih =>
      exact moves (m := j) (Q := fun s s' => (s.liss l).alive = false → (s'.liss l).alive = false)
        (fun _ => id) (fun a o s' mv => (lis_left mv (stopped j (by omega)) l).2.2.1) ih
  obtain ⟨n₂, l₂, q₂⟩ := Endless.together
    (fun l m => ∀ j, max m n₁ ≤ j → ((r.state j).liss l).alive = false)
    (n := n₁) (K := (r.state n₁).lisCount)
    (fun c m m' hm h j hj => h j (by omega))
    (fun l hl j hj => lisDead l n₁ j (Nat.le_refl _) (by omega) (by rw [(good n₁).fresh.liss l hl]))
    (fun l => by
      obtain ⟨m, h1, h2⟩ := r.leads (hf.lis l) (N := n₁) (fun s => (s.liss l).alive = false)
        (fun s => (s.liss l).cmds.length + if (s.liss l).alive = true then 1 else 0)
        (fun m hm ha => by
          have ha : ((r.state m).liss l).alive = true := by simpa using ha
          cases hc : ((r.state m).liss l).cmds with
          | cons x q => exact ⟨_, _, _, rfl, step_of_move (.lisTake l x.1 x.2 q ha hc)⟩
          | nil =>
            refine ⟨_, _, _, rfl, step_of_move (.lisEnd l ha hc ?_)⟩
            refine Bool.eq_false_iff.mpr fun h => ?_
            rcases (lisStrong_iff (good m).fresh l).mp h with h | ⟨k, h, _⟩
            · rw [stopped m hm] at h; cases h
            · rw [(quiet m (by omega)).stubs k] at h; cases h)
        (fun m hm => moves (Q := fun s s' => (s'.liss l).cmds.length + (if (s'.liss l).alive = true then 1 else 0) ≤
            (s.liss l).cmds.length + if (s.liss l).alive = true then 1 else 0) (fun _ => Nat.le_refl _)
          fun a o s' mv => by
            obtain ⟨-, h1, h2, -⟩ := lis_left mv (stopped m hm) l
            grind)
        (fun m hm ha hd => by
          obtain ⟨a, o, h1, h2⟩ := does hd
          obtain ⟨-, h3, h4, h5⟩ := lis_left h2 (stopped m hm) l
          have := h5 h1
          grind)
      exact ⟨m, h1, fun j hj => lisDead l m j h1 (by omega) h2⟩)
  have alone : ∀ j, n₂ ≤ j → ∀ l, ((r.state j).liss l).alive = false := fun j hj l => q₂ l j (by omega)
  -- the connections
  have left := fun m (hm : n₂ ≤ m) a o s' (mv : Move dg (r.state m) a o s') c =>
    (quiet m (by omega)).conn_left (good m).ended mv (stopped m (by omega)) (alone m hm) c
  have connDead : ∀ c m j, n₂ ≤ m → m ≤ j → ((r.state m).conns c).alive = false →
      ((r.state j).conns c).alive = false := by
    intro c m j hm hj h
    induction j, hj using Nat.le_induction with
    | base => exact h
    | succ j hj ih =>
      exact moves (m := j) (Q := fun s s' => (s.conns c).alive = false → (s'.conns c).alive = false)
        (fun _ => id) (fun a o s' mv => (left j (by omega) a o s' mv c).2.2.1) ih
  obtain ⟨n₃, l₃, q₃⟩ := Endless.together
    (fun c m => ∀ j, max m n₂ ≤ j → ((r.state j).conns c).alive = false)
    (n := n₂) (K := (r.state n₂).connCount)
    (fun c m m' hm h j hj => h j (by omega))
    (fun c hc j hj => connDead c n₂ j (Nat.le_refl _) (by omega) (by rw [(good n₂).fresh.conns c hc]))
    (fun c => by
      obtain ⟨m, h1, h2⟩ := r.leads (hf.send c) (N := n₂) (fun s => (s.conns c).alive = false)
        (fun s => connLeft s c + if (s.conns c).alive = true then 1 else 0)
        (fun m hm ha => by
          have ha : ((r.state m).conns c).alive = true := by simpa using ha
          cases ho : ((r.state m).conns c).out with
          | some b => exact ⟨_, _, _, .inr ⟨true, rfl⟩, step_of_move (.sentOk c b ho)⟩
          | none =>
            cases hc : ((r.state m).conns c).cmds with
            | cons x q =>
              cases x with
              | take id i => exact ⟨_, _, _, .inl rfl, step_of_move (.cmdTake c id i q ha ho hc)⟩
              | message x =>
                exact ⟨_, _, _, .inl rfl, step_of_move (.cmdMessage c x q _ ha ho hc (outgoing_eq x))⟩
            | nil =>
              refine ⟨_, _, _, .inl rfl, step_of_move (.cmdEnd c ha ho hc ?_)⟩
              refine Bool.eq_false_iff.mpr fun h => ?_
              have h6 := fun k => (quiet m (by omega)).calls (good m).ended k
              rcases (connStrong_iff (good m).fresh c).mp h with h | ⟨l, h⟩ | ⟨k, h⟩ | ⟨p, h, _⟩
              · rw [stopped m (by omega)] at h; cases h
              · have := (good m).ended.liss l (alone m hm l)
                rcases (Lis.holdsConn_iff _ _).mp h with ⟨b, h⟩ | h
                · rw [this.2.2.1] at h; cases h
                · rw [this.2.2.2] at h; cases h
              · rcases (Stub.holdsConn_iff _ _).mp h with ⟨b, h⟩ | ⟨_, _, h⟩ | ⟨_, _, h⟩
                · rw [(h6 k).2] at h; cases h
                · rw [(h6 k).1] at h; cases h
                · rw [(h6 k).1] at h; cases h
              · rw [(quiet m (by omega)).proxies p] at h; cases h)
        (fun m hm => moves (Q := fun s s' => connLeft s' c + (if (s'.conns c).alive = true then 1 else 0) ≤
            connLeft s c + if (s.conns c).alive = true then 1 else 0) (fun _ => Nat.le_refl _)
          fun a o s' mv => by
            obtain ⟨-, h1, h2, -⟩ := left m hm a o s' mv c
            grind)
        (fun m hm ha hd => by
          obtain ⟨a, o, h1, h2⟩ := does hd
          obtain ⟨-, h3, h4, h5⟩ := left m hm a o _ h2 c
          have := h5 h1
          grind)
      exact ⟨m, h1, fun j hj => connDead c m j h1 (by omega) h2⟩)
  exact ⟨n₃, by omega, fun j hj => ⟨stopped j (by omega), alone j (by omega), fun c => q₃ c j (by omega)⟩⟩

theorem quiet_of {tr : Trace} {s : State} (e : Exec (step dg) init tr s) (h1 : held tr = false)
    (h2 : ∀ k, ¬ StubOpen k tr) (h3 : ∀ p, ¬ ProxyOpen p tr) (h4 : answered tr = requests tr) : Quiet s := by
  rw [← held_eq e] at h1
  simp only [← stub_open_iff e, Bool.not_eq_true] at h2
  simp only [← proxy_open_iff e, Bool.not_eq_true] at h3
  have := asked e
  rw [h4, List.append_assoc, List.append_right_eq_self, List.append_eq_nil_iff] at this
  exact ⟨h1, h2, h3, this.1, this.2⟩

/-- **C131.** If no task is passed over for ever, then after the endpoint and all stubs and proxies have been
dropped, and all requests answered, the endpoint task ends, and so do all listeners and connections, and none
of them starts again; whatever arrives meanwhile, and whoever connects. -/
theorem C131_ends (r : Run dg) (hf : r.Fair) {n : Nat} (h1 : held (r.hist n) = false)
    (h2 : ∀ k, ¬ StubOpen k (r.hist n)) (h3 : ∀ p, ¬ ProxyOpen p (r.hist n))
    (h4 : answered (r.hist n) = requests (r.hist n)) :
    ∃ m, n ≤ m ∧ ∀ j, m ≤ j → Spec.Ep.Over (r.state j) ∧ ∀ c, ¬ ConnOpen c (r.hist j) := by
  obtain ⟨m, hm, h⟩ := run_ends r hf (quiet_of (r.exec n) h1 h2 h3 h4)
  refine ⟨m, hm, fun j hj => ⟨h j hj, fun c hc => ?_⟩⟩
  have := (conn_open_iff (r.exec j) c).mpr hc
  rw [(h j hj).2.2 c] at this
  cases this

/-- Nobody has a stub or a proxy, if the few there were have been dropped. -/
theorem none_open {tr : Trace} {s : State} (e : Exec (step dg) init tr s)
    (h1 : ∀ k, k < s.stubCount → (s.stubs k).alive = false) (h2 : ∀ p, p < s.proxyCount → (s.proxies p).alive = false) :
    (∀ k, ¬ StubOpen k tr) ∧ ∀ p, ¬ ProxyOpen p tr := by
  have hf := (good_hist e).1.fresh
  refine ⟨fun k => ?_, fun p => ?_⟩
  · rw [← stub_open_iff e, Bool.not_eq_true]
    by_cases hk : k < s.stubCount
    · exact h1 k hk
    · rw [hf.stubs k (by omega)]
  · rw [← proxy_open_iff e, Bool.not_eq_true]
    by_cases hp : p < s.proxyCount
    · exact h2 p hp
    · rw [hf.proxies p (by omega)]

/-- **C131**, on a UDP socket. -/
theorem C131_udp (r : Node.Run) (hf : Node.Fair r) {n : Nat} (h1 : held (Node.app (r.hist n)) = false)
    (h2 : ∀ k, ¬ StubOpen k (Node.app (r.hist n))) (h3 : ∀ p, ¬ ProxyOpen p (Node.app (r.hist n)))
    (h4 : answered (Node.app (r.hist n)) = requests (Node.app (r.hist n))) :
    ∃ m, n ≤ m ∧ ∀ j, m ≤ j → Spec.Ep.Over (r.state j).ep ∧ ∀ c, ¬ ConnOpen c (Node.app (r.hist j)) := by
  rw [← Rt.Node.epRun_hist] at h1 h4
  simp only [← Rt.Node.epRun_hist] at h2 h3 ⊢
  exact C131_ends (Rt.Node.epRun r) (Rt.Node.ep_fair hf) h1 h2 h3 h4

/-- A fair run in which everything is dropped while the task, the listener and two connections are there, a
message is to be sent on one of the connections, and a datagram has arrived that nobody has read. -/
example : ∃ (r : Node.Run) (n : Nat), Node.Fair r ∧ held (Node.app (r.hist n)) = false ∧
    (∀ k, ¬ StubOpen k (Node.app (r.hist n))) ∧ (∀ p, ¬ ProxyOpen p (Node.app (r.hist n))) ∧
    answered (Node.app (r.hist n)) = requests (Node.app (r.hist n)) ∧ (r.state n).ep.pc = .idle ∧
    ((r.state n).ep.liss 0).alive = true ∧ ((r.state n).ep.conns 0).alive = true ∧
    ((r.state n).ep.conns 1).alive = true ∧ ((r.state n).ep.conns 0).cmds ≠ [] := by
  obtain ⟨tr, s, e, h⟩ := exec_by (step := Node.step) (s := Node.init)
    (Spec.Node.busy ++ [.app (.proxySend 0 Spec.Ep.msgB), .datagram 9 (frame Spec.Ep.msgA), .app (.dropStub 0),
      .app .close, .app (.dropProxy 0)])
    (fun tr s => decide ((∀ k, k < s.ep.stubCount → (s.ep.stubs k).alive = false) ∧
      (∀ p, p < s.ep.proxyCount → (s.ep.proxies p).alive = false) ∧
      (∀ k, k < s.ep.stubCount → (s.ep.stubs k).pc = .idle) ∧ held (Node.app tr) = false ∧
      answered (Node.app tr) = requests (Node.app tr) ∧ s.ep.pc = .idle ∧
      (s.ep.liss 0).alive = true ∧ (s.ep.conns 0).alive = true ∧ (s.ep.conns 1).alive = true ∧
      (s.ep.conns 0).cmds ≠ [])) (by decide +kernel)
  obtain ⟨h1, h2, h3, h4, h5, h6⟩ := of_decide_eq_true h
  have e' := (Rt.Node.parts e).1
  obtain ⟨r, h7, -, -, h8, h9, -⟩ := Rt.Node.goes_on e fun k => by
    by_cases hk : k < s.ep.stubCount
    · exact h3 k hk
    · rw [(good_hist e').1.fresh.stubs k (by omega)]
  obtain ⟨h10, h11⟩ := none_open e' h1 h2
  refine ⟨r, tr.length, h7, ?_⟩
  rw [h8, h9]
  exact ⟨h4, h10, h11, h5, h6⟩

/-- **C131**, on a TCP socket. -/
theorem C131_tcp (r : TcpNode.Run) (hf : TcpNode.Fair r) {n : Nat} (h1 : held (TcpNode.app (r.hist n)) = false)
    (h2 : ∀ k, ¬ StubOpen k (TcpNode.app (r.hist n))) (h3 : ∀ p, ¬ ProxyOpen p (TcpNode.app (r.hist n)))
    (h4 : answered (TcpNode.app (r.hist n)) = requests (TcpNode.app (r.hist n))) :
    ∃ m, n ≤ m ∧ ∀ j, m ≤ j → Spec.Ep.Over (r.state j).ep ∧ ∀ c, ¬ ConnOpen c (TcpNode.app (r.hist j)) := by
  rw [← Rt.TcpNode.epRun_hist] at h1 h4
  simp only [← Rt.TcpNode.epRun_hist] at h2 h3 ⊢
  exact C131_ends (Rt.TcpNode.epRun r) (Rt.TcpNode.ep_fair hf) h1 h2 h3 h4

/-- A fair run in which everything is dropped after two messages have been given to a connection. -/
example : ∃ (r : TcpNode.Run) (n : Nat), TcpNode.Fair r ∧ held (TcpNode.app (r.hist n)) = false ∧
    (∀ k, ¬ StubOpen k (TcpNode.app (r.hist n))) ∧ (∀ p, ¬ ProxyOpen p (TcpNode.app (r.hist n))) ∧
    answered (TcpNode.app (r.hist n)) = requests (TcpNode.app (r.hist n)) ∧ (r.state n).ep.pc = .idle ∧
    ((r.state n).ep.liss 0).alive = true ∧ ((r.state n).ep.conns 0).alive = true ∧
    ((r.state n).ep.conns 1).alive = true ∧ ((r.state n).ep.conns 0).cmds ≠ [] ∧
    ((r.state n).ep.conns 0).out ≠ none := by
  obtain ⟨tr, s, e, h⟩ := exec_by (step := TcpNode.step) (s := TcpNode.init)
    (Spec.TcpNode.busy ++ [.app (.proxySend 0 Spec.Ep.msgB), .app (.connCmd 0), .app (.proxySend 0 Spec.Ep.msgB'),
      .app (.dropStub 0), .app .close, .app (.dropProxy 0)])
    (fun tr s => decide ((∀ k, k < s.ep.stubCount → (s.ep.stubs k).alive = false) ∧
      (∀ p, p < s.ep.proxyCount → (s.ep.proxies p).alive = false) ∧
      (∀ k, k < s.ep.stubCount → (s.ep.stubs k).pc = .idle) ∧ held (TcpNode.app tr) = false ∧
      answered (TcpNode.app tr) = requests (TcpNode.app tr) ∧ s.ep.pc = .idle ∧
      (s.ep.liss 0).alive = true ∧ (s.ep.conns 0).alive = true ∧ (s.ep.conns 1).alive = true ∧
      (s.ep.conns 0).cmds ≠ [] ∧ (s.ep.conns 0).out ≠ none)) (by decide +kernel)
  obtain ⟨h1, h2, h3, h4, h5, h6⟩ := of_decide_eq_true h
  have e' := Rt.TcpNode.part e
  obtain ⟨r, h7, -, -, h8, h9, -⟩ := Rt.TcpNode.goes_on e fun k => by
    by_cases hk : k < s.ep.stubCount
    · exact h3 k hk
    · rw [(good_hist e').1.fresh.stubs k (by omega)]
  obtain ⟨h10, h11⟩ := none_open e' h1 h2
  refine ⟨r, tr.length, h7, ?_⟩
  rw [h8, h9]
  exact ⟨h4, h10, h11, h5, h6⟩

end Rsomeip
