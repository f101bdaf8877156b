import Verif.Lemmas.EpConn
import Verif.Lemmas.EpMove
import Verif.Lemmas.EpFed
import Verif.Lemmas.EpUse
import Verif.Lemmas.EpWork
import Verif.Props.Rt.Packets
import Verif.Props.Rt.Endpoint
import Verif.Props.Rt.Again
import Verif.Props.Rt.Send

/-! # C75, C77 and C78: how long connections, tasks and channels last -/

namespace Rsomeip

open Rt Rt.Ep Spec Spec.Ep Someip

/-! ### C75 -/

/-- Connection `c` is in use: by a proxy, by a stub, which keeps the connections it has opened, or by
a listener, which keeps the last one accepted from every address. -/
def Spec.Ep.Used (s : State) (c : Nat) : Prop :=
  (∃ p, (s.proxies p).alive = true ∧ (s.proxies p).conn = c) ∨
  (∃ k a, (s.stubs k).conns.get a = some c) ∨
  (∃ k a m, (s.stubs k).pc = .sending a m c) ∨
  ∃ l a, (s.liss l).conns.get a = some c

theorem Spec.Ep.Used.held {s : State} {c : Nat} (h : Used s c) : HeldConn s c := by
  rcases h with ⟨p, hp⟩ | ⟨k, b, hk⟩ | ⟨k, b, m, hk⟩ | ⟨l, b, hl⟩
  · exact .inr (.inr (.inr ⟨p, hp⟩))
  · exact .inr (.inr (.inl ⟨k, (Stub.holdsConn_iff ..).mpr (.inl ⟨b, Map.mem_of_get hk⟩)⟩))
  · exact .inr (.inr (.inl ⟨k, (Stub.holdsConn_iff ..).mpr (.inr (.inr ⟨b, m, hk⟩))⟩))
  · exact .inr (.inl ⟨l, (Lis.holdsConn_iff ..).mpr (.inl ⟨b, Map.mem_of_get hl⟩)⟩)

theorem conn_ends {dg : Bool} {tr : Trace} {s s' : State} {a : Action} {o : Obs} {c : Nat}
    (e : Exec (step dg) init tr s) (hs : step dg s a = some (s', o))
    (h1 : (s.conns c).alive = true) (h2 : (s'.conns c).alive = false) :
    a = .packet c .closed ∨ a = .sent c false ∨
      (a = .connCmd c ∧ ¬ HeldConn s c ∧ (s.conns c).cmds = [] ∧ (s.conns c).out = none) := by
  have hf := (good_hist e).1.fresh
  cases move_of_step hs
  case packetEnd d r ha hw hr =>
    by_cases hd : c = d
    · subst hd
      refine .inl ?_
      cases r with
      | closed => rfl
      | lagged n => simp [receive] at hr
      | packet b =>
        rcases C52_all_or_nothing b with ⟨ms, _, h⟩ | ⟨_, x, h⟩ <;> rw [h] at hr <;> simp at hr
    · simp [upd_ne _ _ hd, h1] at h2
  case cmdPanic d m q ha ho hq hb =>
    rw [outgoing_eq] at hb
    cases hb
  case cmdEnd d ha ho hq hn =>
    by_cases hd : c = d
    · subst hd
      exact .inr (.inr ⟨rfl, connStrong_false hf hn, hq, ho⟩)
    · simp [upd_ne _ _ hd, h1] at h2
  case sentFail d b ho =>
    by_cases hd : c = d
    · subst hd
      exact .inr (.inl rfl)
    · simp [upd_ne _ _ hd, h1] at h2
  all_goals exfalso; grind [upd, newConn]

/-- **C75.** A connection ends only if the socket reports that it is closed, the socket fails to
send, or the connection is not in use and has nothing left to send. -/
theorem C75_ends {dg : Bool} {tr : Trace} {s s' : State} {a : Action} {o : Obs} {c : Nat}
    (e : Exec (step dg) init tr s) (hs : step dg s a = some (s', o))
    (h1 : ConnOpen c tr) (h2 : ConnOver c (tr ++ [(a, o)])) :
    a = .packet c .closed ∨ a = .sent c false ∨
      (a = .connCmd c ∧ ¬ Used s c ∧ (s.conns c).cmds = [] ∧ (s.conns c).out = none) := by
  have h2 : (s'.conns c).alive = false := (dead_iff (e.snoc hs) c).mpr (.inr h2)
  rcases conn_ends e hs ((conn_open_iff e c).mpr h1) h2 with h | h | ⟨h3, h4, h5⟩
  · exact .inl h
  · exact .inr (.inl h)
  · exact .inr (.inr ⟨h3, fun hu => h4 hu.held, h5⟩)

theorem conn_lasts {dg : Bool} {tr : Trace} {s : State} {c : Nat}
    (e : Exec (step dg) init tr s) (hu : HeldConn s c)
    (hn : ∀ x ∈ tr, x.1 ≠ .packet c .closed ∧ x.1 ≠ .sent c false) :
    (s.conns c).alive = true := by
  induction e with
  | nil => 
    have := connStrong_iff Fresh.init c
    rw [← this] at hu
    exact absurd hu (by simp [State.connStrong, init, EpPc.holdsConn])
  | @snoc tr s s' a o e hs ih =>
    have hf := (good_hist e).1.fresh
    rcases (move_of_step hs).heldConn hf hu with h | ⟨_, h⟩
    · have h1 := ih h fun x hx => hn x (List.mem_append_left _ hx)
      cases h2 : (s'.conns c).alive with
      | true => rfl
      | false =>
        have h3 := hn (a, o) (List.mem_append_right _ (List.mem_singleton_self _))
        rcases conn_ends e hs h1 h2 with h4 | h4 | ⟨_, h4, _⟩
        · exact absurd h4 h3.1
        · exact absurd h4 h3.2
        · exact absurd h h4
    · exact h

/-- **C75.** A connection that is in use lasts: unless the socket reported that it is closed or
failed to send, its task is running. -/
theorem C75_lasts {dg : Bool} {tr : Trace} {s : State} {c : Nat}
    (e : Exec (step dg) init tr s) (hu : Used s c)
    (hn : ∀ x ∈ tr, x.1 ≠ .packet c .closed ∧ x.1 ≠ .sent c false) :
    ConnOpen c tr := (conn_open_iff e c).mp (conn_lasts e hu.held hn)

/-- A proxy, a stub and a listener that use a connection each; nothing went wrong with the
connections. -/
example : ∃ tr s, Exec (step true) init tr s ∧ Used s 0 ∧ Used s 1 ∧
    ∀ x ∈ tr, (x.1 ≠ .packet 0 .closed ∧ x.1 ≠ .sent 0 false) ∧
      (x.1 ≠ .packet 1 .closed ∧ x.1 ≠ .sent 1 false) := by
  obtain ⟨tr, s, e, h⟩ := exec_by (step := step true) (s := init)
    ((sendTrace.map Prod.fst).take 28)
    (fun tr s => decide (((s.proxies 0).alive = true ∧ (s.proxies 0).conn = 1) ∧
        (s.liss 0).conns.get 8 = some 0 ∧
        ∀ x ∈ tr, (x.1 ≠ .packet 0 .closed ∧ x.1 ≠ .sent 0 false) ∧
          (x.1 ≠ .packet 1 .closed ∧ x.1 ≠ .sent 1 false))) (by decide +kernel)
  obtain ⟨h1, h2, h3⟩ := of_decide_eq_true h
  exact ⟨tr, s, e, .inr (.inr (.inr ⟨0, 8, h2⟩)), .inl ⟨0, h1⟩, h3⟩

/-- The last handle of a connection is dropped: the connection ends. -/
example : ∃ tr s s' o, Exec (step true) init tr s ∧ step true s (.connCmd 0) = some (s', o) ∧
    ConnOpen 0 tr ∧ ConnOver 0 (tr ++ [(.connCmd 0, o)]) := by
  obtain ⟨tr, s, e, h⟩ := exec_reaches (step := step true) (s := init)
    [.proxy ⟨2, 1⟩ 7, .ep true, .ep true, .ep true, .ep true, .ep true, .ep true, .connCmd 0,
      .dropProxy 0]
    (fun s => decide ((s.conns 0).alive = true ∧ ((step true s (.connCmd 0)).map
      fun x => (x.1.conns 0).alive) = some false)) (by decide +kernel)
  obtain ⟨h1, h2⟩ := of_decide_eq_true h
  cases h3 : step true s (.connCmd 0) with
  | none => rw [h3] at h2; cases h2
  | some x =>
    refine ⟨tr, s, x.1, x.2, e, h3, (conn_open_iff e 0).mp h1, over_of_dead (e.snoc h3) ?_ ?_⟩
    · obtain ⟨a, h⟩ := (conn_shown e 0).mp (alive_lt (good_hist e).1.fresh h1)
      exact (conn_shown (e.snoc h3) 0).mpr ⟨a, h.mono _⟩
    · simpa [h3] using h2

/-! ### C77 -/

/-- Nobody calls, and nothing comes from the network: only the tasks and the calls in progress do
something. -/
def Spec.Ep.Alone (t : Trace) : Prop :=
  ∀ x ∈ t, (∃ ok, x.1 = .ep ok) ∨ (∃ l, x.1 = .lisShare l) ∨ (∃ l, x.1 = .lisCmd l) ∨
    (∃ c, x.1 = .route c) ∨ (∃ c, x.1 = .connCmd c) ∨ (∃ c ok, x.1 = .sent c ok) ∨
    ∃ k, x.1 = .stubStep k

/-- The endpoint task has ended, and so have all listeners and connections. -/
def Spec.Ep.Over (s : State) : Prop :=
  s.pc = .stopped ∧ (∀ l, (s.liss l).alive = false) ∧ ∀ c, (s.conns c).alive = false

theorem internal_of_alone {t : Trace} (h : Alone t) : ∀ x ∈ t, x.1.internal = true := by
  rintro ⟨a, o⟩ hx
  rcases h _ hx with ⟨_, h⟩ | ⟨_, h⟩ | ⟨_, h⟩ | ⟨_, h⟩ | ⟨_, h⟩ | ⟨_, _, h⟩ | ⟨_, h⟩ <;>
    (dsimp only at h; subst h; rfl)

/-- **C77.** Without calls and without input from the network, the tasks come to rest: the number of
steps they do is bounded, whatever the schedule. -/
theorem C77_rests {dg : Bool} {tr : Trace} {s : State} (e : Exec (step dg) init tr s) :
    ∃ n, ∀ t s', Exec (step dg) s t s' → Alone t → t.length ≤ n :=
  ⟨s.work, fun _ _ e' h => Nat.le_trans (Nat.le_add_right _ _)
    (work_bound (good_hist e).1 e' (internal_of_alone h))⟩

/-- Everything has been dropped and all requests have been answered. -/
structure Quiet (s : State) : Prop where
  handles : s.handles = false
  stubs : ∀ k, (s.stubs k).alive = false
  proxies : ∀ p, (s.proxies p).alive = false
  pc : s.pc.current = []
  cmds : waiting s.cmds = []

theorem Quiet.step {dg : Bool} {s s' : State} {a : Action} {o : Obs} (h : Quiet s) (hf : Fresh s) (he : Ended s)
    (m : Move dg s a o s') : Quiet s' := by
  obtain ⟨h1, h2, h3, h4, h5⟩ := h
  have h6 : ∀ k, (s.stubs k).pc = .idle := fun k => (he.stubs k (h2 k)).2
  have h9 : s.epStrong = false := by
    refine Bool.eq_false_iff.mpr fun h => ?_
    rcases (epStrong_iff hf).mp h with h | ⟨k, a, m, h | ⟨_, h⟩ | ⟨_, h⟩⟩
    · rw [h1] at h; cases h
    all_goals rw [h6] at h; cases h
  have h7 := answer_cases s
  have h8 := refuse_cases s
  clear he hf
  cases m
  case connectOk k b t hpc hd =>
    refine ⟨h1, fun j => ?_, h3, rfl, h5⟩
    show Stub.alive (answer ..) = false
    rcases h7 k t s.connCount j with ⟨_, _, _, h, _⟩ | h
    · rw [h6] at h; cases h
    · rw [h]; exact h2 j
  case connectFail k b t hpc hd hk | connectRefused k b t hpc hd hk =>
    refine ⟨h1, fun j => ?_, h3, rfl, h5⟩
    show Stub.alive (refuse ..) = false
    rcases h8 k t j with ⟨_, _, _, h, _⟩ | h
    · rw [h6] at h; cases h
    · rw [h]; exact h2 j
  all_goals first
    | exact ⟨h1, h2, h3, h4, h5⟩
    | exact ⟨h1, h2, h3, rfl, h5⟩
    | (simp_all [EpPc.current, waiting]; done)
    | (exfalso; simp_all [EpPc.current, waiting]; done)
    | (refine ⟨h1, h2, h3, rfl, ?_⟩; simp_all [waiting]; done)

/-- **C77.** When the endpoint and all stubs and proxies have been dropped, and no request is left
unanswered, the tasks go on until all of them have ended; with `C77_rests`, they do end. -/
theorem C77_ends {dg : Bool} {tr t : Trace} {s s' : State} (e : Exec (step dg) init tr s)
    (h1 : held tr = false) (h2 : ∀ k, ¬ StubOpen k tr) (h3 : ∀ p, ¬ ProxyOpen p tr) (h4 : answered tr = requests tr)
    (e' : Exec (step dg) s t s') (ht : Alone t) :
    Over s' ∨ ∃ a s'' o, step dg s' a = some (s'', o) ∧ Alone [(a, o)] := by
  rw [← held_eq e] at h1
  simp only [← stub_open_iff e, Bool.not_eq_true] at h2
  simp only [← proxy_open_iff e, Bool.not_eq_true] at h3
  have hq : Quiet s := by
    have := asked e
    rw [h4, List.append_assoc, List.append_right_eq_self, List.append_eq_nil_iff] at this
    exact ⟨h1, h2, h3, this.1, this.2⟩
  have hq' : Quiet s' := by
    have hg := (good_hist e).1
    clear ht
    induction e' with
    | nil => exact hq
    | snoc e₁ hs ih => exact ih.step (hg.exec e₁).fresh (hg.exec e₁).ended (move_of_step hs)
  have hg := (good_hist (e.append e')).1
  clear e' ht hq h1 h2 h3 h4 e
  obtain ⟨h1, h2, h3, h4, h5⟩ := hq'
  have h6 : ∀ k, (s'.stubs k).pc = .idle ∧ (s'.stubs k).conns = .empty := fun k =>
    ⟨(hg.ended.stubs k (h2 k)).2, (hg.ended.stubs k (h2 k)).1⟩
  have hf := hg.fresh
  by_cases hn : ∃ a s'' o, step dg s' a = some (s'', o) ∧ Alone [(a, o)]
  · exact .inr hn
  refine .inl ?_
  have no : ∀ a s'' o, Move dg s' a o s'' → Alone [(a, o)] → False := fun a s'' o m h =>
    hn ⟨a, s'', o, step_of_move m, h⟩
  have hep : ∀ ok s'' o, Move dg s' (.ep ok) o s'' → False := fun ok s'' o m => no _ _ _ m (by
    simp [Alone])
  have hpc : s'.pc = .stopped := by
    cases hp : s'.pc with
    | stopped => rfl
    | idle =>
      exfalso
      cases hc : s'.cmds with
      | nil =>
        refine hep true _ _ (.epStop true hp hc ?_)
        refine Bool.eq_false_iff.mpr fun h => ?_
        rcases (epStrong_iff hf).mp h with h | ⟨k, a, m, h | ⟨_, h⟩ | ⟨_, h⟩⟩
        · rw [h1] at h; cases h
        all_goals rw [(h6 k).1] at h; cases h
      | cons x q =>
        cases x with
        | serve id => exact hep true _ _ (.epServe true id q hp hc)
        | proxy id a => exact hep true _ _ (.epProxy true id a q hp hc)
        | connect k a t => exact hep true _ _ (.epConnect true k a t q hp hc)
    | connect k a t =>
      exfalso
      cases dg with
      | true => exact hep true _ _ (.connectOk k a t hp rfl)
      | false =>
        by_cases hk : ∃ b m, (s'.stubs k).pc = .asked b m t
        · exact hep true _ _ (.connectRefused true k a t hp rfl hk)
        · exact hep true _ _ (.connectStale true k a t hp nofun hk)
    | _ => rw [hp] at h4; cases h4
  have hlis : ∀ l, (s'.liss l).alive = false := by
    intro l
    cases ha : (s'.liss l).alive with
    | false => rfl
    | true =>
      exfalso
      cases hc : (s'.liss l).cmds with
      | cons x q => exact no _ _ _ (.lisTake l x.1 x.2 q ha hc) (by simp [Alone])
      | nil =>
        refine no _ _ _ (.lisEnd l ha hc ?_) (by simp [Alone])
        refine Bool.eq_false_iff.mpr fun h => ?_
        rcases (lisStrong_iff hf l).mp h with h | ⟨k, h, _⟩
        · rw [hpc] at h; cases h
        · rw [h2 k] at h; cases h
  refine ⟨hpc, hlis, fun c => ?_⟩
  cases ha : (s'.conns c).alive with
  | false => rfl
  | true =>
    exfalso
    cases ho : (s'.conns c).out with
    | some b => exact no _ _ _ (.sentOk c b ho) (by simp [Alone])
    | none =>
      cases hc : (s'.conns c).cmds with
      | cons x q =>
        cases x with
        | take id i => exact no _ _ _ (.cmdTake c id i q ha ho hc) (by simp [Alone])
        | message m =>
          exact no _ _ _ (.cmdMessage c m q _ ha ho hc (outgoing_eq m)) (by simp [Alone])
      | nil =>
        refine no _ _ _ (.cmdEnd c ha ho hc ?_) (by simp [Alone])
        refine Bool.eq_false_iff.mpr fun h => ?_
        rcases (connStrong_iff hf c).mp h with h | ⟨l, h⟩ | ⟨k, h⟩ | ⟨p, h, _⟩
        · rw [hpc] at h; cases h
        · have := hg.ended.liss l (hlis l)
          rcases (Lis.holdsConn_iff _ _).mp h with ⟨b, h⟩ | h
          · rw [this.2.2.1] at h; cases h
          · rw [this.2.2.2] at h; cases h
        · rcases (Stub.holdsConn_iff _ _).mp h with ⟨b, h⟩ | ⟨_, _, h⟩ | ⟨_, _, h⟩
          · rw [(h6 k).2] at h; cases h
          · rw [(h6 k).1] at h; cases h
          · rw [(h6 k).1] at h; cases h
        · rw [h3 p] at h; cases h

/-- After the sample, everything is dropped; tasks, listener and connections are still there. -/
example : ∃ tr s, Exec (step true) init tr s ∧ held tr = false ∧ (∀ k, ¬ StubOpen k tr) ∧
    (∀ p, ¬ ProxyOpen p tr) ∧ answered tr = requests tr ∧ s.pc = .idle ∧
    (s.liss 0).alive = true ∧ (s.conns 0).alive = true ∧ (s.conns 1).alive = true := by
  obtain ⟨tr, s, e, h⟩ := exec_by (step := step true) (s := init)
    (sampleTrace.map Prod.fst ++ [.dropStub 0, .close, .dropProxy 0])
    (fun tr s => decide (held tr = false ∧ ((s.stubs 0).alive = false ∧ s.stubCount = 1 ∧
      (s.proxies 0).alive = false ∧ s.proxyCount = 1) ∧ answered tr = requests tr ∧ s.pc = .idle ∧
      (s.liss 0).alive = true ∧ (s.conns 0).alive = true ∧ (s.conns 1).alive = true))
    (by decide +kernel)
  obtain ⟨h1, ⟨h2, h3, h4, h5⟩, h6⟩ := of_decide_eq_true h
  have hf := (good_hist e).1.fresh
  refine ⟨tr, s, e, h1, fun k => ?_, fun p => ?_, h6⟩
  · rw [← stub_open_iff e, Bool.not_eq_true]
    cases k with
    | zero => exact h2
    | succ k => rw [hf.stubs (k + 1) (by omega)]
  · rw [← proxy_open_iff e, Bool.not_eq_true]
    cases p with
    | zero => exact h4
    | succ p => rw [hf.proxies (p + 1) (by omega)]

/-! ### C78 -/

/-- Stubs are open until they are dropped. -/
theorem stub_open {dg : Bool} {tr : Trace} {s : State} {k : Nat} (e : Exec (step dg) init tr s)
    (hk : k < s.stubCount) : (s.stubs k).alive = true ∨ (.dropStub k, .none) ∈ tr := by
  induction e with
  | nil => exact absurd hk (Nat.not_lt_zero _)
  | @snoc tr s s' a o e hs ih =>
    have h3 := answer_cases s
    have h4 := refuse_cases s
    have hm := move_of_step hs
    have hl : (a, o) ∈ tr ++ [(a, o)] := List.mem_append_right _ (List.mem_singleton_self _)
    have h5 : k < s.stubCount → (s.stubs k).alive = true ∨ (.dropStub k, .none) ∈ tr ++ [(a, o)] :=
      fun h => (ih h).imp id (List.mem_append_left _)
    clear hs ih e
    generalize tr ++ [(a, o)] = tr' at *
    cases hm <;> first | exact h5 hk | grind [upd, stubAt_apply]

/-- Proxies are open until they are dropped. -/
theorem proxy_open {dg : Bool} {tr : Trace} {s : State} {p : Nat} (e : Exec (step dg) init tr s)
    (hp : p < s.proxyCount) : (s.proxies p).alive = true ∨ (.dropProxy p, .none) ∈ tr := by
  induction e with
  | nil => exact absurd hp (Nat.not_lt_zero _)
  | @snoc tr s s' a o e hs ih =>
    have hm := move_of_step hs
    have hl : (a, o) ∈ tr ++ [(a, o)] := List.mem_append_right _ (List.mem_singleton_self _)
    have h5 : p < s.proxyCount → (s.proxies p).alive = true ∨ (.dropProxy p, .none) ∈ tr ++ [(a, o)] :=
      fun h => (ih h).imp id (List.mem_append_left _)
    clear hs ih e
    generalize tr ++ [(a, o)] = tr' at *
    cases hm <;> first | exact h5 hp | grind [upd]

/-- The listener of an open stub lasts until the socket closes it. -/
theorem lis_lasts {dg : Bool} {tr : Trace} {s : State} {k : Nat} (e : Exec (step dg) init tr s)
    (hk : (s.stubs k).alive = true) :
    (s.liss (s.stubs k).lis).alive = true ∨ (.acceptNone (s.stubs k).lis, .ended) ∈ tr := by
  induction e with
  | nil => exact absurd hk (by simp [init])
  | @snoc tr s s' a o e hs ih =>
    have hf := (good_hist e).1.fresh
    have hm := move_of_step hs
    have hl : (a, o) ∈ tr ++ [(a, o)] := List.mem_append_right _ (List.mem_singleton_self _)
    rcases hm.stub_alive hk with h1 | ⟨_, id, l, i, _, _, h2, _, h3, _⟩
    · have h2 := stub_lt hf h1
      rw [(hm.stub_keep h2).2.2]
      have h3 : (s.liss (s.stubs k).lis).alive = true ∨
          (.acceptNone (s.stubs k).lis, .ended) ∈ tr ++ [(a, o)] :=
        (ih h1).imp id (List.mem_append_left _)
      have h4 := ((fed e).stubs k h1).1
      have h5 := lisStrong_iff hf (s.stubs k).lis
      have h6 := h5.mpr (.inr ⟨k, h1, rfl⟩)
      generalize (s.stubs k).lis = l at *
      clear ih hs e h5 h2 h1 hk hf
      generalize tr ++ [(a, o)] = tr' at *
      cases hm <;> first | exact h3 | grind [upd, newLis, deadLis]
    · exact .inl (h2 ▸ h3)

/-- **C78.** A received message for an interface with an open stub is dropped only if the socket has
closed the listener. -/
theorem C78_stub {dg : Bool} {tr : Trace} {s : State} {x : Action} {m : Msg} {w : Drop} {k i : Nat}
    {id : InterfaceId} (e : Exec (step dg) init (tr ++ [(x, .dropped m w)]) s)
    (hk : Shown tr (.serving k i id)) (hf : For m id) (hd : (.dropStub k, .none) ∉ tr) :
    ∃ l, (.acceptNone l, .ended) ∈ tr := by
  obtain ⟨s₁, e₁, hs⟩ := e.last
  have hg := (good_hist e₁).1
  obtain ⟨h1, h2, _, h3⟩ := (made e₁).stub k i id hk
  have h4 := (stub_open e₁ h1).resolve_right hd
  rcases lis_lasts e₁ h4 with h5 | h5
  · have h6 := (fed e₁).open_stub hg h4 h5
    rw [h2] at h6
    exact absurd h6 ((move_of_step hs).not_open hg i (h3.trans (For.of hf).symm))
  · exact ⟨_, h5⟩

/-- **C78.** A received message for an interface with an open proxy is dropped only if the socket has
closed the connection of the proxy to its remote. -/
theorem C78_proxy {dg : Bool} {tr : Trace} {s : State} {x : Action} {m : Msg} {w : Drop} {p i : Nat}
    {id : InterfaceId} {r : Addr} (e : Exec (step dg) init (tr ++ [(x, .dropped m w)]) s)
    (hp : Shown tr (.proxying p i id r)) (hf : For m id) (hd : (.dropProxy p, .none) ∉ tr) :
    ∃ c, Shown tr (.opened c r) ∧ ∃ y ∈ tr, y.1 = .packet c .closed ∨ y.1 = .sent c false := by
  obtain ⟨s₁, e₁, hs⟩ := e.last
  obtain ⟨hg, hh⟩ := good_hist e₁
  obtain ⟨h1, h2, h3, _, h4⟩ := (made e₁).proxy p i id r hp
  have h5 := (proxy_open e₁ h1).resolve_right hd
  have h6 := ((fed e₁).proxies p h5).1
  refine ⟨(s₁.proxies p).conn, ?_, ?_⟩
  · have := hh.conns _ h6
    rwa [((peers e₁).proxies p h1).2, h3] at this
  · apply Decidable.byContradiction
    intro hn
    have h7 := conn_lasts (c := (s₁.proxies p).conn) e₁ (.inr (.inr (.inr ⟨p, h5, rfl⟩)))
      fun y hy => ⟨fun h => hn ⟨y, hy, .inl h⟩, fun h => hn ⟨y, hy, .inr h⟩⟩
    have h8 := (fed e₁).open_proxy hg h5 h7
    rw [h2] at h8
    exact absurd h8 ((move_of_step hs).not_open hg i (h4.trans (For.of hf).symm))

/-- **C78.** A message for an interface with an open stub is given to that stub and no other, unless
the socket has closed the listener. -/
theorem C78_right_stub {dg : Bool} {tr : Trace} {s : State} {x : Action} {m : Msg} {a : Addr}
    {k i j : Nat} {id : InterfaceId} (e : Exec (step dg) init (tr ++ [(x, .routed j m a)]) s)
    (hk : Shown tr (.serving k i id)) (hf : For m id) (hd : (.dropStub k, .none) ∉ tr)
    (hl : ∀ l, (.acceptNone l, .ended) ∉ tr) : j = i := by
  obtain ⟨s₁, e₁, hs⟩ := e.last
  have hg := (good_hist e₁).1
  obtain ⟨h1, h2, _, h3⟩ := (made e₁).stub k i id hk
  have h4 := (stub_open e₁ h1).resolve_right hd
  have h5 := (lis_lasts e₁ h4).resolve_right (hl _)
  have h6 := (fed e₁).open_stub hg h4 h5
  rw [h2] at h6
  have h7 := hg.opens.shared i h6
  have hm := move_of_step hs
  generalize hx : Obs.routed j m a = o at hm
  cases hm <;> first | (cases hx; done) | (split at hx <;> cases hx) | cases hx
  rename_i c ms hrx hq hw
  have := hg.ids.sending c j m ms hw
  rw [For.of hf, ← h3, h7] at this
  cases this
  rfl

/-- **C78.** A message for an interface with an open proxy is given to that proxy and no other, unless
the socket has closed the connection of the proxy to its remote. -/
theorem C78_right_proxy {dg : Bool} {tr : Trace} {s : State} {x : Action} {m : Msg} {a : Addr}
    {p i j : Nat} {id : InterfaceId} {r : Addr}
    (e : Exec (step dg) init (tr ++ [(x, .routed j m a)]) s)
    (hp : Shown tr (.proxying p i id r)) (hf : For m id) (hd : (.dropProxy p, .none) ∉ tr) :
    j = i ∨ ∃ c, Shown tr (.opened c r) ∧ ∃ y ∈ tr, y.1 = .packet c .closed ∨ y.1 = .sent c false := by
  obtain ⟨s₁, e₁, hs⟩ := e.last
  obtain ⟨hg, hh⟩ := good_hist e₁
  obtain ⟨h1, h2, h3, _, h4⟩ := (made e₁).proxy p i id r hp
  have h5 := (proxy_open e₁ h1).resolve_right hd
  have h6 := ((fed e₁).proxies p h5).1
  by_cases hn : ∃ y ∈ tr, y.1 = .packet (s₁.proxies p).conn .closed ∨
      y.1 = .sent (s₁.proxies p).conn false
  · refine .inr ⟨(s₁.proxies p).conn, ?_, hn⟩
    have := hh.conns _ h6
    rwa [((peers e₁).proxies p h1).2, h3] at this
  · left
    have h7 := conn_lasts (c := (s₁.proxies p).conn) e₁ (.inr (.inr (.inr ⟨p, h5, rfl⟩)))
      fun y hy => ⟨fun h => hn ⟨y, hy, .inl h⟩, fun h => hn ⟨y, hy, .inr h⟩⟩
    have h8 := (fed e₁).open_proxy hg h5 h7
    rw [h2] at h8
    have h9 := hg.opens.shared i h8
    have hm := move_of_step hs
    generalize hx : Obs.routed j m a = o at hm
    cases hm <;> first | (cases hx; done) | (split at hx <;> cases hx) | cases hx
    rename_i c ms hrx hq hw
    have := hg.ids.sending c j m ms hw
    rw [For.of hf, ← h4, h9] at this
    cases this
    rfl

/-- In the sample, the listener and the connection of the proxy are closed by the socket; then
messages for the stub and the proxy, which are still open, arrive at the other connection. -/
def Spec.Ep.lostTrace : Trace :=
  sampleTrace.take 17 ++
    [(.acceptNone 0, .ended), (.packet 1 .closed, .ended),
      (.packet 0 (.packet (frame msgA ++ frame msgB)), .none), (.route 0, .dropped msgA .dead),
      (.route 0, .dropped msgB .dead)]

theorem lostTrace_exec : ∃ s, Exec (step true) init lostTrace s := by
  have h : (perform (step true) init (lostTrace.map Prod.fst)).map
      (fun x => x.1.map Prod.snd) = some (lostTrace.map Prod.snd) := by decide +kernel
  obtain ⟨s, e⟩ := exec_of_shown h
  exact ⟨s, e⟩

/-- A message for an open stub that is dropped. -/
example : ∃ s, Exec (step true) init (lostTrace.take 20 ++ [(.route 0, .dropped msgA .dead)]) s ∧
    Shown (lostTrace.take 20) (.serving 0 0 ⟨1, 1⟩) ∧ For msgA ⟨1, 1⟩ ∧
    (.dropStub 0, .none) ∉ lostTrace.take 20 := by
  obtain ⟨s, e⟩ := lostTrace_exec
  obtain ⟨s', e', _⟩ := Exec.split
    (show Exec (step true) init (lostTrace.take 21 ++ lostTrace.drop 21) s from e)
  exact ⟨s', e', ⟨.ep true, by decide +kernel⟩, ⟨by decide, by decide⟩, by decide +kernel⟩

/-- A message for an open proxy that is dropped. -/
example : ∃ s, Exec (step true) init (lostTrace.take 21 ++ [(.route 0, .dropped msgB .dead)]) s ∧
    Shown (lostTrace.take 21) (.proxying 0 1 ⟨2, 1⟩ 7) ∧ For msgB ⟨2, 1⟩ ∧
    (.dropProxy 0, .none) ∉ lostTrace.take 21 := by
  obtain ⟨s, e⟩ := lostTrace_exec
  exact ⟨s, e, ⟨.ep true, by decide +kernel⟩, ⟨by decide, by decide⟩, by decide +kernel⟩

/-- A message for an open stub, with the listener open. -/
example : ∃ s, Exec (step true) init (sampleTrace.take 19 ++ [(.route 0, .routed 0 msgA 8)]) s ∧
    Shown (sampleTrace.take 19) (.serving 0 0 ⟨1, 1⟩) ∧ For msgA ⟨1, 1⟩ ∧
    (.dropStub 0, .none) ∉ sampleTrace.take 19 ∧ ∀ l, (.acceptNone l, .ended) ∉ sampleTrace.take 19 := by
  obtain ⟨s, e⟩ := sampleTrace_exec
  obtain ⟨s', e', _⟩ := Exec.split
    (show Exec (step true) init (sampleTrace.take 20 ++ sampleTrace.drop 20) s from e)
  exact ⟨s', e', ⟨.ep true, by decide +kernel⟩, ⟨by decide, by decide⟩, by decide +kernel,
    fun l => by simp [sampleTrace]⟩

/-- A message for an open proxy, with its connection open. -/
example : ∃ s, Exec (step true) init (sampleTrace.take 21 ++ [(.route 0, .routed 1 msgB 8)]) s ∧
    Shown (sampleTrace.take 21) (.proxying 0 1 ⟨2, 1⟩ 7) ∧ For msgB ⟨2, 1⟩ ∧
    (.dropProxy 0, .none) ∉ sampleTrace.take 21 ∧
    ∀ c, ∀ y ∈ sampleTrace.take 21, ¬ (y.1 = .packet c .closed ∨ y.1 = .sent c false) := by
  obtain ⟨s, e⟩ := sampleTrace_exec
  obtain ⟨s', e', _⟩ := Exec.split
    (show Exec (step true) init (sampleTrace.take 22 ++ sampleTrace.drop 22) s from e)
  exact ⟨s', e', ⟨.ep true, by decide +kernel⟩, ⟨by decide, by decide⟩, by decide +kernel,
    fun c => by simp [sampleTrace]⟩

/-! ### C79 -/

/-- The task of a connection that has ended does nothing any more. -/
theorem ended_stays {dg : Bool} {tr t : Trace} {s s' : State} {c : Nat}
    (e : Exec (step dg) init tr s) (hc : c < s.connCount) (ha : (s.conns c).alive = false)
    (e' : Exec (step dg) s t s') :
    (s'.conns c).alive = false ∧ c < s'.connCount ∧ settled c (tr ++ t) = settled c tr ∧
      heard c (tr ++ t) = heard c tr := by
  induction e' with
  | nil => exact ⟨ha, hc, by rw [List.append_nil], by rw [List.append_nil]⟩
  | @snoc t s₁ s₂ a o e₁ hs ih =>
    obtain ⟨h1, h2, h3, h4⟩ := ih
    have hg := (good_hist (e.append e₁)).1
    have hm := move_of_step hs
    have h5 : c < s₂.connCount := Nat.lt_of_lt_of_le h2 (by cases hm <;> simp)
    have h6 : (s₂.conns c).alive = false := by
      cases h : (s₂.conns c).alive with
      | false => rfl
      | true =>
        rcases hm.alive_new c h with h | h
        · rw [h1] at h; cases h
        · exact absurd h (by omega)
    rw [← List.append_assoc, ← h3, ← h4]
    have hp := (hg.ended.conns c h1).2.2.2
    refine ⟨h6, h5, settled_other ?_, ?_⟩
    · rintro rfl
      cases hm <;> simp_all
    · rw [heard_snoc, hearing_other, List.append_nil]
      rintro r rfl
      cases hm <;> simp_all

/-- A proxy is made, its remote sends two messages in one packet; when the first one has been put
into the proxy's queue, the socket fails to send a message of the proxy. -/
def Spec.Ep.halfTrace : Trace :=
  [(.proxy ⟨2, 1⟩ 7, .none), (.ep true, .none), (.ep true, .none), (.ep true, .none),
    (.ep true, .opened 0 7), (.ep true, .none), (.ep true, .proxying 0 0 ⟨2, 1⟩ 7),
    (.connCmd 0, .none), (.packet 0 (.packet (frame msgB ++ frame msgB')), .none), (.route 0, .none),
    (.route 0, .routed 0 msgB 7), (.proxySend 0 msgB, .accepted 0 msgB), (.connCmd 0, .none),
    (.sent 0 false, .wire (frame msgB) false)]

/-- **C79** is false: the second message of a packet is neither put into the queue of the open proxy
it is for, nor dropped because nobody is there; it is lost. -/
theorem C79_false : ∃ s, Exec (step true) init halfTrace s ∧
    (∀ x, (.dropProxy 0, x) ∉ halfTrace) ∧
    ∀ t s', Exec (step true) s t s' → msgB' ∉ settled 0 (halfTrace ++ t) := by
  have h : (perform (step true) init (halfTrace.map Prod.fst)).map
      (fun x => decide (x.1 = halfTrace ∧ 0 < x.2.connCount ∧ (x.2.conns 0).alive = false)) =
        some true := by decide +kernel
  obtain ⟨tr, s, e, h⟩ := exec_by (step := step true) (s := init) (halfTrace.map Prod.fst)
    (fun tr s => decide (tr = halfTrace ∧ 0 < s.connCount ∧ (s.conns 0).alive = false)) h
  obtain ⟨rfl, h1, h2⟩ := of_decide_eq_true h
  refine ⟨s, e, fun x => by simp [halfTrace], fun t s' e' => ?_⟩
  rw [(ended_stays e h1 h2 e').2.2.1]
  decide +kernel

/-- **C79.** When the peer closes the connection, or the socket reports this, every message received
from it before is put into a queue or dropped because nobody is there, once, in order. (Missing:
connections that end because sending fails or nobody has a handle of them, see `C79_false`.) -/
theorem C79_closed_partial {dg : Bool} {tr t : Trace} {s : State} {c : Nat} {o : Obs}
    (e : Exec (step dg) init (tr ++ [(.packet c .closed, o)] ++ t) s) :
    settled c (tr ++ [(.packet c .closed, o)] ++ t) = heard c (tr ++ [(.packet c .closed, o)] ++ t) := by
  obtain ⟨s₁, e₁, e₂⟩ := e.split
  have h1 := C56_all e₁
  obtain ⟨s₀, e₀, hs⟩ := e₁.last
  have h2 : (s₁.conns c).alive = false ∧ c < s₁.connCount := by
    have hf := (good_hist e₀).1.fresh
    have hm := move_of_step hs
    cases hm with
    | packetRoute _ _ ms _ _ hr => simp [receive] at hr
    | packetSkip _ _ _ _ hr => simp [receive] at hr
    | packetEnd _ _ ha _ _ => exact ⟨by simp [upd_same, Conn.ended], alive_lt hf ha⟩
  obtain ⟨_, _, h3, h4⟩ := ended_stays e₁ h2.2 h2.1 e₂
  rw [h3, h4, settled_other (by nofun), heard_snoc,
    show hearing c (.packet c .closed) = [] from rfl, List.append_nil, h1]

/-- **C79.** Only messages of the last packet received from a connection can be lost: every message
of the packets before is put into a queue or dropped because nobody is there, once, in order. -/
theorem C79_last_partial {dg : Bool} {tr t : Trace} {s : State} {c : Nat} {r : Recv} {o : Obs}
    (e : Exec (step dg) init (tr ++ [(.packet c r, o)] ++ t) s) :
    heard c tr <+: settled c (tr ++ [(.packet c r, o)] ++ t) := by
  obtain ⟨s₁, e₁, e₂⟩ := e.split
  rw [← C56_all e₁]
  simp only [settled, List.append_assoc, List.filterMap_append]
  exact List.prefix_append ..

/-- The peer of a connection closes it after it has sent messages. -/
def Spec.Ep.closedTrace : Trace := sampleTrace ++ [(.packet 0 .closed, .ended)]

example : ∃ s, Exec (step true) init closedTrace s ∧ settled 0 closedTrace = [msgA, msgB, msgC] := by
  have h : (perform (step true) init (closedTrace.map Prod.fst)).map
      (fun x => x.1.map Prod.snd) = some (closedTrace.map Prod.snd) := by decide +kernel
  obtain ⟨s, e⟩ := exec_of_shown h
  exact ⟨s, e, by decide +kernel⟩

end Rsomeip
