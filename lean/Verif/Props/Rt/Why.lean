import Verif.Lemmas.EpWords
import Verif.Lemmas.NodeOpen
import Verif.Lemmas.EpSend
import Verif.Lemmas.TcpOpen
import Verif.Props.Rt.Home

/-! # C120: why `serve` and `proxy` fail -/

namespace Rsomeip

open Rt Rt.Ep Spec Spec.Ep Someip

namespace Rt.Ep

section
variable {dg : Bool} {s s' : State} {a : Action} {o : Obs} {tr : Trace}

/-- Before a handle for an interface was handed out, nobody owns a sender of a channel for it. -/
theorem gone_before {id : InterfaceId} (e : Exec (step dg) init tr s)
    (h : ∀ i o, Created i id o → ¬ Shown tr o) : Gone id s := by
  induction e with
  | nil => intro i hi; simp [init, Map.empty, Map.get, Map.find] at hi
  | snoc e hs ih =>
    have h1 := ih fun i o hc hs => h i o hc (hs.mono _)
    have h2 := (good_hist e).1.ids
    have h3 := fun i hc => h i _ hc (Shown.last ..)
    exact fun i hi => ⟨fun l => h1.step_liss h2 (move_of_step hs) h3 i l hi,
      fun c => h1.step_conns h2 (move_of_step hs) h3 i c hi⟩

theorem Move.lis_strong_old (hf : Fresh s) (hf' : Fresh s') (m : Move dg s a o s') {l : Nat}
    (hl : l < s.lisCount) (h : s'.lisStrong l = true) : s.lisStrong l = true := by
  rw [lisStrong_iff hf'] at h
  rw [lisStrong_iff hf]
  rcases h with h | ⟨k, h1, h2⟩
  · have h3 := lisStrong_iff hf l
    cases m <;> first
      | exact .inl h
      | (simp [EpPc.holdsLis] at h; done)
      | (simp [EpPc.holdsLis] at h; subst h; first
          | (exact h3.mp ‹_›)
          | (exact absurd hl (Nat.lt_irrefl _))
          | (refine .inl ?_; simp_all [EpPc.holdsLis]))
  · rcases m.stub_alive h1 with h3 | ⟨_, id, l', i, h3, _, h4, _⟩
    · exact .inr ⟨k, h3, (m.stub_keep (stub_lt hf h3)).2.2 ▸ h2⟩
    · refine .inl ?_
      rw [h3, ← h2, h4]
      simp [EpPc.holdsLis]

theorem Move.lis_new (m : Move dg s a o s') {l : Nat} (hl : l < s'.lisCount) :
    l < s.lisCount ∨ (s'.liss l).alive = true := by
  cases m <;> first | exact .inl hl | grind [upd, newLis]

/-- A listener that has a handle has not ended, or the connector has ended it. -/
theorem lis_why (e : Exec (step dg) init tr s) {l : Nat} (hl : l < s.lisCount)
    (hs : s.lisStrong l = true) (ha : (s.liss l).alive = false) : (.acceptNone l, .ended) ∈ tr := by
  induction e with
  | nil => simp [init] at hl
  | @snoc tr s s' x o e h ih =>
    have m := move_of_step h
    rcases m.lis_new hl with h1 | h1
    · have h2 := m.lis_strong_old (good_hist e).1.fresh (good_hist (e.snoc h)).1.fresh h1 hs
      cases h3 : (s.liss l).alive with
      | false => exact List.mem_append_left _ (ih h1 h2 h3)
      | true =>
        rcases m.lis_ends h1 h3 h2 with h4 | rfl
        · rw [ha] at h4; cases h4
        · cases m
          simp
    · rw [ha] at h1; cases h1

theorem lis_dead {t : Trace} (e : Exec (step dg) s t s') {l : Nat} (hl : l < s.lisCount)
    (h : (s.liss l).alive = false) (hp : (s.liss l).pc = .wait) :
    l < s'.lisCount ∧ (s'.liss l).alive = false ∧ (s'.liss l).pc = .wait := by
  induction e with
  | nil => exact ⟨hl, h, hp⟩
  | snoc _ hs ih => exact (move_of_step hs).lis_dead ih.1 ih.2.1 ih.2.2

theorem stub_lis {t : Trace} (e : Exec (step dg) s t s') {k : Nat} (hk : k < s.stubCount) :
    k < s'.stubCount ∧ (s'.stubs k).lis = (s.stubs k).lis := by
  induction e with
  | nil => exact ⟨hk, rfl⟩
  | snoc _ hs ih =>
    have h := (move_of_step hs).stub_keep ih.1
    exact ⟨h.1, h.2.2.trans ih.2⟩

end

end Rt.Ep

/-- **C120.** `serve` and `proxy` report that an interface exists already only if a stub or a proxy for
that interface was handed out before. -/
theorem C120_exists {dg : Bool} {tr : Trace} {x : Action} {o : Obs} {s : State} {id : InterfaceId}
    (e : Exec (step dg) init (tr ++ [(x, o)]) s) (ho : Refused id o) :
    ∃ i o', Created i id o' ∧ Shown tr o' := by
  obtain ⟨s₁, e₁, hs⟩ := e.last
  refine Classical.byContradiction fun h => ?_
  have hg := gone_before (id := id) e₁ fun i o' hc hs => h ⟨i, o', hc, hs⟩
  have m := move_of_step hs
  have hk := @not_known s₁ id (good_hist e₁).1 hg
  clear e e₁ hs h hg
  cases m
  case serveExists ok id' hpc hl hk' =>
    obtain h | ⟨a, h⟩ := ho
    · cases h
      rw [hk hl (by simp [hpc, EpPc.holds])] at hk'
      cases hk'
    · cases h
  case proxyExists ok id' a hpc hl hk' =>
    obtain h | ⟨a, h⟩ := ho
    · cases h
    · cases h
      rw [hk hl (by simp [hpc, EpPc.holds])] at hk'
      cases hk'
  all_goals (rcases ho with h | ⟨a, h⟩ <;> first | (cases h; done) | (split at h <;> cases h))

/-- A service is offered, and offered again. -/
example : ∃ tr s, Exec (step true) init (tr ++ [(.ep true, .serveFailed ⟨1, 1⟩ .exists)]) s := by
  let t : Trace := served ++ [(.serve ⟨1, 1⟩, .none), (.ep true, .none)]
  let w : Trace := t ++ [(.ep true, .serveFailed ⟨1, 1⟩ .exists)]
  obtain ⟨tr, s, e, h⟩ := exec_by (step := step true) (s := init) (w.map Prod.fst)
    (fun tr _ => decide (tr = w)) (by decide +kernel)
  rw [of_decide_eq_true h] at e
  exact ⟨t, s, e⟩

/-- **C120.** `serve` fails only if the interface exists already, if the connector cannot listen, or if
it has closed a listener before. -/
theorem C120_serve {dg : Bool} {tr : Trace} {x : Action} {w : Why} {s : State} {id : InterfaceId}
    (e : Exec (step dg) init (tr ++ [(x, .serveFailed id w)]) s) :
    w = .exists ∨ w = .io ∧ (x = .ep false ∨ ∃ l, (.acceptNone l, .ended) ∈ tr) := by
  obtain ⟨s₁, e₁, hs⟩ := e.last
  generalize hx : Obs.serveFailed id w = o at hs
  have m := move_of_step hs
  clear e
  cases m <;> first
    | (cases hx; done)
    | (split at hx <;> cases hx)
    | (cases hx; exact .inl rfl)
    | (cases hx; exact .inr ⟨rfl, .inl rfl⟩)
    | skip
  case serveClosed ok id' l i hpc ha =>
    cases hx
    have h1 : s₁.pc.holdsLis l = true := by simp [hpc, EpPc.holdsLis]
    exact .inr ⟨rfl, .inr ⟨l, lis_why e₁ (listener_lt e₁ ((slot e₁).pc l h1))
      ((lisStrong_iff (good_hist e₁).1.fresh l).mpr (.inl h1)) ha⟩⟩

/-- The connector cannot listen. -/
example : ∃ tr s, Exec (step true) init (tr ++ [(.ep false, .serveFailed ⟨1, 1⟩ .io)]) s := by
  let t : Trace := [(.serve ⟨1, 1⟩, .none), (.ep true, .none), (.ep true, .none)]
  let w : Trace := t ++ [(.ep false, .serveFailed ⟨1, 1⟩ .io)]
  obtain ⟨tr, s, e, h⟩ := exec_by (step := step true) (s := init) (w.map Prod.fst)
    (fun tr _ => decide (tr = w)) (by decide +kernel)
  rw [of_decide_eq_true h] at e
  exact ⟨t, s, e⟩

/-- **C120.** `proxy` fails only if the interface exists already, if the connector cannot connect, or if
a connection to this remote has ended. -/
theorem C120_proxy {dg : Bool} {tr : Trace} {x : Action} {w : Why} {s : State} {id : InterfaceId}
    {a : Addr} (e : Exec (step dg) init (tr ++ [(x, .proxyFailed id a w)]) s) :
    w = .exists ∨ (w = .io ∧ x = .ep false) ∨
    w = .notConnected ∧ ∃ c, Shown tr (.opened c a) ∧ ConnOver c tr := by
  obtain ⟨s₁, e₁, hs⟩ := e.last
  generalize hx : Obs.proxyFailed id a w = o at hs
  have m := move_of_step hs
  clear e
  cases m <;> first
    | (cases hx; done)
    | (split at hx <;> cases hx)
    | (cases hx; exact .inl rfl)
    | (cases hx; exact .inr (.inl ⟨rfl, rfl⟩))
    | skip
  case proxyClosed ok id' a' c i hpc ha =>
    cases hx
    obtain ⟨h1, h2⟩ := (peers e₁).take _ _ _ _ hpc
    exact .inr (.inr ⟨rfl, c, h2 ▸ (good_hist e₁).2.conns c h1, over_of_dead e₁ h1 ha⟩)

/-- A remote connects and disconnects, and a proxy for it is asked for. -/
example : ∃ tr s, Exec (step true) init (tr ++ [(.ep true, .proxyFailed ⟨2, 1⟩ 8 .notConnected)]) s ∧
    Shown tr (.opened 0 8) ∧ (.packet 0 .closed, .ended) ∈ tr := by
  let t : Trace := served ++ [(.accept 0 8, .opened 0 8), (.lisShare 0, .none),
    (.packet 0 .closed, .ended), (.proxy ⟨2, 1⟩ 8, .none), (.ep true, .none), (.ep true, .none),
    (.ep true, .none), (.ep true, .none)]
  let w : Trace := t ++ [(.ep true, .proxyFailed ⟨2, 1⟩ 8 .notConnected)]
  obtain ⟨tr, s, e, h⟩ := exec_by (step := step true) (s := init) (w.map Prod.fst)
    (fun tr _ => decide (tr = w)) (by decide +kernel)
  rw [of_decide_eq_true h] at e
  exact ⟨t, s, e, ⟨.accept 0 8, by simp [t]⟩, by simp [t]⟩

/-- **C120.** As long as the connector succeeds, has closed no listener, and no handle for the interface
was handed out, `serve` does not fail. -/
theorem C120_first {dg : Bool} {tr : Trace} {ok : Bool} {o : Obs} {s : State} {id : InterfaceId}
    (e : Exec (step dg) init (tr ++ [(.ep ok, o)]) s) (h1 : ok = true)
    (h2 : ∀ l, (.acceptNone l, .ended) ∉ tr) (h3 : ∀ i o, Created i id o → ¬ Shown tr o) :
    ∀ w, o ≠ .serveFailed id w := by
  rintro w rfl
  rcases C120_serve e with rfl | ⟨_, h | ⟨l, h⟩⟩
  · obtain ⟨i, o', hc, hs⟩ := C120_exists e (.inl rfl)
    exact h3 i o' hc hs
  · cases h; cases h1
  · exact h2 l h

/-- An interface is offered while another one is. -/
example : ∃ tr o s, Exec (step true) init (tr ++ [(.ep true, o)]) s ∧ Created 1 ⟨2, 1⟩ o ∧
    (∀ l, (.acceptNone l, .ended) ∉ tr) ∧ ∀ i o, Created i ⟨2, 1⟩ o → ¬ Shown tr o := by
  let t : Trace := served ++ [(.serve ⟨2, 1⟩, .none), (.ep true, .none), (.ep true, .none),
    (.ep true, .none), (.ep true, .none)]
  let w : Trace := t ++ [(.ep true, .serving 1 1 ⟨2, 1⟩)]
  obtain ⟨tr, s, e, h⟩ := exec_by (step := step true) (s := init) (w.map Prod.fst)
    (fun tr _ => decide (tr = w)) (by decide +kernel)
  rw [of_decide_eq_true h] at e
  refine ⟨t, _, s, e, .inl ⟨1, rfl⟩, by simp [t, served], ?_⟩
  rintro i o (⟨k, rfl⟩ | ⟨p, a, rfl⟩) <;> simp [Shown, t, served]

/-- **C120.** While a stub is kept whose `recv_from` has reported that it is closed, no `serve` succeeds,
for any interface. -/
theorem C120_stuck {dg : Bool} {tr tr' : Trace} {s : State} {k : Nat}
    (e : Exec (step dg) init (tr ++ [(.stubRecv k, .closed)] ++ tr') s)
    (hk : (.dropStub k, .none) ∉ tr') : ∀ k' i id, ¬ Shown tr' (.serving k' i id) := by
  rintro k' i id ⟨z, hz⟩
  obtain ⟨t, u, rfl⟩ := List.append_of_mem hz
  rw [List.append_cons t, ← List.append_assoc, ← List.append_assoc] at e
  obtain ⟨_, e, _⟩ := e.split
  obtain ⟨s₃, e, hs⟩ := e.last
  obtain ⟨s₂, e₂, e₃⟩ := e.split
  obtain ⟨s₁, e₁, hs₁⟩ := e₂.last
  have m := move_of_step hs₁
  obtain ⟨ha, hl, hd⟩ : (s₂.stubs k).alive = true ∧ (s₂.stubs k).lis < s₂.lisCount ∧
      (s₂.liss (s₂.stubs k).lis).alive = false := by
    cases m
    case stubClosed ha hw hq hst =>
      obtain ⟨h1, h2⟩ := (fed e₁).stubs k ha
      refine ⟨ha, h1, Bool.eq_false_iff.mpr fun h3 => ?_⟩
      rw [(ifStrong_iff (good_hist e₁).1.fresh _).mpr (.inr (.inr ⟨_, Lis.latest_holds (h2 h3)⟩))] at hst
      cases hst
  have hd' := (lis_dead e₃ hl hd ((good_hist e₂).1.ended.liss _ hd).2.2.2).2.1
  have ho := (stub_open_iff e₂ k).mp ha
  have ha' : (s₃.stubs k).alive = true := (stub_open_iff e k).mpr
    ⟨ho.1.imp fun _ => .imp fun _ h => h.mono _, fun h => (List.mem_append.mp h).elim ho.2 fun h =>
      hk (List.mem_append_left _ h)⟩
  have h1 := (slot e).stubs k ha'
  rw [(stub_lis e₃ (stub_lt (good_hist e₂).1.fresh ha)).2] at h1
  exact (move_of_step hs).no_serving (slot e) hd' h1 k' i id rfl

/-- The connector closes the listener. The stub is closed, another interface is refused, and offered
once the stub is dropped. -/
example : ∃ tr tr' s, Exec (step true) init (tr ++ [(.stubRecv 0, .closed)] ++ tr' ++
    [(.dropStub 0, .none), (.serve ⟨2, 1⟩, .none), (.ep true, .none), (.ep true, .none),
      (.ep true, .none), (.ep true, .none), (.ep true, .serving 1 2 ⟨2, 1⟩)]) s ∧
    (.dropStub 0, .none) ∉ tr' ∧ (.ep true, .serveFailed ⟨2, 1⟩ .io) ∈ tr' := by
  let t : Trace := served ++ [(.acceptNone 0, .ended)]
  let t' : Trace := [(.serve ⟨2, 1⟩, .none), (.ep true, .none), (.ep true, .none), (.ep true, .none),
    (.ep true, .none), (.ep true, .serveFailed ⟨2, 1⟩ .io)]
  let w : Trace := t ++ [(.stubRecv 0, .closed)] ++ t' ++
    [(.dropStub 0, .none), (.serve ⟨2, 1⟩, .none), (.ep true, .none), (.ep true, .none),
      (.ep true, .none), (.ep true, .none), (.ep true, .serving 1 2 ⟨2, 1⟩)]
  obtain ⟨tr, s, e, h⟩ := exec_by (step := step true) (s := init) (w.map Prod.fst)
    (fun tr _ => decide (tr = w)) (by decide +kernel)
  rw [of_decide_eq_true h] at e
  exact ⟨t, t', s, e, by simp [t'], by simp [t']⟩

end Rsomeip
