import Verif.Lemmas.EpHome
import Verif.Props.Rt.Send

/-! # C115: answers go back over the connection on which the question came -/

namespace Rsomeip

open Rt Rt.Ep Spec Spec.Ep
open Someip (InterfaceId)

/-- Listener `l` accepted connection `c` from `a`, and then registered it. No other connection from `a`
was accepted, and nobody had sent to `a` before it was registered. -/
def Spec.Ep.Home (tr : Trace) (l c : Nat) (a : Addr) : Prop :=
  ∃ t u v, tr = t ++ (.accept l a, .opened c a) :: (u ++ (.lisShare l, .none) :: v) ∧
    (∀ o, (.lisShare l, o) ∉ u) ∧ (∀ l' o, (.accept l' a, o) ∉ t ++ u ++ v) ∧
    ∀ k m o, (.stubSend k a m, o) ∉ t ++ u

/-- Neither the listener nor the connection has ended. -/
def Spec.Ep.Serving (tr : Trace) (l c : Nat) : Prop :=
  (.lisCmd l, .ended) ∉ tr ∧ (∀ o, (.acceptNone l, o) ∉ tr) ∧ (∀ r, (.packet c r, .ended) ∉ tr) ∧
    (.connCmd c, .ended) ∉ tr ∧ ∀ o, (.sent c false, o) ∉ tr

theorem Spec.Ep.Serving.mono {t u : Trace} {l c : Nat} (h : Serving (t ++ u) l c) : Serving t l c ∧ Serving u l c :=
  ⟨⟨fun h' => h.1 (List.mem_append_left _ h'), fun o h' => h.2.1 o (List.mem_append_left _ h'),
    fun r h' => h.2.2.1 r (List.mem_append_left _ h'), fun h' => h.2.2.2.1 (List.mem_append_left _ h'),
    fun o h' => h.2.2.2.2 o (List.mem_append_left _ h')⟩,
   ⟨fun h' => h.1 (List.mem_append_right _ h'), fun o h' => h.2.1 o (List.mem_append_right _ h'),
    fun r h' => h.2.2.1 r (List.mem_append_right _ h'), fun h' => h.2.2.2.1 (List.mem_append_right _ h'),
    fun o h' => h.2.2.2.2 o (List.mem_append_right _ h')⟩⟩

theorem serving_step {dg : Bool} {s s' : State} {x : Action} {o : Obs} {l c : Nat}
    (m : Move dg s x o s') (h : Serving [(x, o)] l c) (hl : l < s.lisCount) (hc : c < s.connCount)
    (h1 : (s.liss l).alive = true) (h2 : (s.conns c).alive = true) :
    (s'.liss l).alive = true ∧ (s'.conns c).alive = true := by
  obtain ⟨k1, k2, k3, k4, k5⟩ := h
  refine ⟨m.lis_alive h1 ?_ ?_ hl, m.conn_alive h2 ?_ ?_ ?_ hc⟩
  · rintro ⟨rfl, rfl⟩; exact k1 (List.mem_singleton_self _)
  · rintro rfl; exact k2 _ (List.mem_singleton_self _)
  · rintro r ⟨rfl, rfl⟩; exact k3 _ (List.mem_singleton_self _)
  · rintro ⟨rfl, rfl⟩; exact k4 (List.mem_singleton_self _)
  · rintro rfl; exact k5 _ (List.mem_singleton_self _)

theorem single {dg : Bool} {s s' : State} {x : Action} {o : Obs}
    (e : Exec (step dg) s [(x, o)] s') : step dg s x = some (s', o) := by
  obtain ⟨s₁, e₁, h⟩ := Exec.last (tr := []) e
  generalize hn : ([] : Trace) = t at e₁
  cases e₁ with
  | nil => exact h
  | snoc => simp at hn

section
variable {dg : Bool} {a : Addr} {l c : Nat}

theorem untold_exec {t u : Trace} {s s' : State} {w : Option (Nat × Nat)}
    (e : Exec (step dg) init t s) (e' : Exec (step dg) s u s') (h : Untold s a w)
    (h1 : ∀ l o, (.accept l a, o) ∉ u) (h2 : ∀ k m o, (.stubSend k a m, o) ∉ u) : Untold s' a w := by
  induction e' with
  | nil => exact h
  | snoc e' hs ih =>
    refine (ih (fun l o h => h1 l o (List.mem_append_left _ h))
      fun k m o h => h2 k m o (List.mem_append_left _ h)).step (peers (e.append e')) (move_of_step hs) ?_ ?_
    · rintro l rfl; exact h1 l _ (List.mem_append_right _ (List.mem_singleton_self _))
    · rintro k m rfl; exact h2 k m _ (List.mem_append_right _ (List.mem_singleton_self _))

theorem waiting_exec {u : Trace} {s s' : State}
    (e' : Exec (step dg) s u s') (hl : l < s.lisCount) (hc : c < s.connCount)
    (ha : (s.liss l).alive = true) (hac : (s.conns c).alive = true) (hs : (s.liss l).pc = .share c)
    (hk : Serving u l c) (hn : ∀ o, (.lisShare l, o) ∉ u) :
    l < s'.lisCount ∧ c < s'.connCount ∧ (s'.liss l).alive = true ∧ (s'.conns c).alive = true ∧
      (s'.liss l).pc = .share c ∧ (s'.conns c).addr = (s.conns c).addr := by
  induction e' with
  | nil => exact ⟨hl, hc, ha, hac, hs, rfl⟩
  | snoc e' hs ih =>
    obtain ⟨i1, i2, i3, i4, i5, i6⟩ := ih hk.mono.1 fun o h => hn o (List.mem_append_left _ h)
    have m := move_of_step hs
    obtain ⟨k1, k2⟩ := serving_step m hk.mono.2 i1 i2 i3 i4
    refine ⟨m.lis_keep i1, (m.conn_keep i2).1, k1, k2, m.sharing i5 i1 ?_ k1, (m.conn_keep i2).2.trans i6⟩
    rintro rfl
    exact hn _ (List.mem_append_right _ (List.mem_singleton_self _))

theorem homed_exec {t u : Trace} {s s' : State} (e : Exec (step dg) init t s)
    (e' : Exec (step dg) s u s') (hl : l < s.lisCount) (hc : c < s.connCount)
    (ha : (s.liss l).alive = true) (hac : (s.conns c).alive = true)
    (h : Homed s a c ∧ Unasked s a ∧ (s.liss l).conns.get a = some c)
    (hk : Serving u l c) (h1 : ∀ l o, (.accept l a, o) ∉ u) :
    l < s'.lisCount ∧ c < s'.connCount ∧ (s'.liss l).alive = true ∧ (s'.conns c).alive = true ∧
      Homed s' a c ∧ Unasked s' a ∧ (s'.liss l).conns.get a = some c := by
  induction e' with
  | nil => exact ⟨hl, hc, ha, hac, h⟩
  | snoc e' hs ih =>
    obtain ⟨i1, i2, i3, i4, i5, i6, i7⟩ := ih hk.mono.1 fun l o h => h1 l o (List.mem_append_left _ h)
    have m := move_of_step hs
    obtain ⟨k1, k2⟩ := serving_step m hk.mono.2 i1 i2 i3 i4
    refine ⟨m.lis_keep i1, (m.conn_keep i2).1, k1, k2,
      (i5.step (peers (e.append e')) m ?_ (lis_strong (good_hist (e.append e')).1.fresh i7) k2).1,
      i6.step i5 m, i5.lis_owns m i1 i7 k1⟩
    rintro l rfl
    exact h1 _ _ (List.mem_append_right _ (List.mem_singleton_self _))

/-- Where the histories of `Home` lead. -/
theorem home {tr : Trace} {s : State} (e : Exec (step dg) init tr s) (h : Home tr l c a)
    (hk : Serving tr l c) : l < s.lisCount ∧ c < s.connCount ∧ (s.liss l).alive = true ∧
      (s.conns c).alive = true ∧ Homed s a c ∧ Unasked s a ∧ (s.liss l).conns.get a = some c := by
  obtain ⟨t, u, v, rfl, h1, h2, h3⟩ := h
  obtain ⟨k1, k2⟩ := hk.mono
  obtain ⟨k2, k3⟩ := Serving.mono (t := [_]) k2
  obtain ⟨k3, k4⟩ := k3.mono
  obtain ⟨k4, k5⟩ := Serving.mono (t := [_]) k4
  obtain ⟨s₁, e₁, e'⟩ := e.split
  obtain ⟨s₂, e₂, e'⟩ := Exec.split (t := [_]) e'
  obtain ⟨s₃, e₃, e'⟩ := e'.split
  obtain ⟨s₄, e₄, e₅⟩ := Exec.split (t := [_]) e'
  have hs₂ := single e₂
  have hs₄ := single e₄
  have q1 : Untold s₁ a none := untold_exec .nil e₁ (.init a) (fun l o h => h2 l o (by simp [h]))
    fun k m o h => h3 k m o (by simp [h])
  obtain ⟨q2, w1, w2, w3⟩ := q1.accept (peers e₁) (move_of_step hs₂)
  have q3 := untold_exec (e₁.append e₂) e₃ q2 (fun l o h => h2 l o (by simp [h]))
    fun k m o h => h3 k m o (by simp [h])
  have hl : l < s₂.lisCount ∧ (s₂.liss l).alive = true ∧ (s₂.conns c).alive = true := by
    have hf := (good_hist e₁).1.fresh
    cases move_of_step hs₂ with
    | accept _ _ ha hw =>
      refine ⟨?_, by simp [upd_same, ha], by simp [upd_same, newConn]⟩
      apply Decidable.byContradiction
      intro hn
      rw [hf.liss l (Nat.not_lt.mp hn)] at ha
      cases ha
  obtain ⟨i1, i2, i3, i4, i5, i6⟩ := waiting_exec e₃ hl.1 w2 hl.2.1 hl.2.2 w1 k3 h1
  have m4 := move_of_step hs₄
  obtain ⟨j1, j2⟩ := serving_step m4 k4 i1 i2 i3 i4
  exact homed_exec (((e₁.append e₂).append e₃).append e₄) e₅ (m4.lis_keep i1) (m4.conn_keep i2).1 j1 j2
    (q3.registers i5 (i6.trans w3) m4) k5 fun l o h => h2 l o (by simp [h])

end

theorem call_of_step {dg : Bool} {tr : Trace} {s s' : State} {k : Nat} {a : Addr} {m : Msg} {o : Obs}
    (e : Exec (step dg) init tr s) (hs : step dg s (.stubStep k) = some (s', o))
    (hm : lastCall k tr = some (a, m)) : (s.stubs k).pc.call = some (a, m) := by
  have hc := in_call e k
  cases hp : (s.stubs k).pc.call with
  | some x => rw [hm] at hc; exact (hc x hp).symm
  | none =>
    cases hq : (s.stubs k).pc <;> rw [hq] at hp <;> cases hp
    simp [step, stubStep, hq] at hs

/-- **C115.** Once a listener has accepted and registered a connection, and as long as both live, no call
of `send_to` to its address fails, whichever stub makes it, and if it returns, the message is in the
queue of this connection. Nobody else may have connected from this address, nor anybody have sent to it
before. -/
theorem C115_same_connection {dg : Bool} {tr : Trace} {s : State} {l c k : Nat} {a : Addr} {m : Msg}
    {o : Obs} (e : Exec (step dg) init (tr ++ [(.stubStep k, o)]) s) (h : Home tr l c a)
    (hk : Serving tr l c) (hm : lastCall k tr = some (a, m)) : o = .none ∨ o = .accepted c m := by
  obtain ⟨s₁, e₁, hs⟩ := e.last
  obtain ⟨h1, h2, h3, h4, h5, -, h7⟩ := home e₁ h hk
  have mv := move_of_step hs
  have hn : Serving [(.stubStep k, o)] l c := by
    simp [Serving]
  obtain ⟨k1, k2⟩ := serving_step mv hn h1 h2 h3 h4
  refine (h5.step (peers e₁) mv (by simp) (lis_strong (good_hist e₁).1.fresh h7) k2).2 k m rfl ?_
  exact call_of_step e₁ hs hm

/-- **C115.** No connection to the address is opened any more, unless a proxy was asked for. -/
theorem C115_none_opened {dg : Bool} {tr : Trace} {s : State} {l c d : Nat} {a : Addr} {ok : Bool}
    (e : Exec (step dg) init (tr ++ [(.ep ok, .opened d a)]) s) (h : Home tr l c a)
    (hk : Serving tr l c) : ∃ id, (.proxy id a, .none) ∈ tr := by
  obtain ⟨s₁, e₁, hs⟩ := e.last
  have h5 := (home e₁ h hk).2.2.2.2.2.1
  cases move_of_step hs with
  | proxyConnect id _ hpc => exact ⟨id, ((unregistered e₁).2.2.2.1 id a hpc).1⟩
  | connectOk k _ t hpc => exact (h5.pc k t hpc).elim

/-- **C115.** The call can return: undisturbed, it does after three steps, if there is room in the queue
of the connection and the entry of the address is not in use. -/
theorem C115_goes_through {dg : Bool} {tr : Trace} {s : State} {l c k : Nat} {a : Addr} (m : Msg)
    (e : Exec (step dg) init tr s) (h : Home tr l c a) (hk : Serving tr l c)
    (ho : StubOpen k tr) (hi : inCall k tr = false) (hl : s.peerLocked a = false)
    (hq : (s.conns c).cmds.length < connCap) :
    ∃ s', Exec (step dg) s [(.stubSend k a m, .none), (.stubStep k, .none), (.stubStep k, .none),
      (.stubStep k, .accepted c m)] s' := by
  obtain ⟨h1, h2, h3, h4, h5, -, h7⟩ := home e h hk
  exact C68_uses_registered m e ho hi ⟨h5.peer, lis_strong (good_hist e).1.fresh h7⟩ hl
    ((conn_open_iff e c).mp h4) hq

/-- `Home` for a history that is given by its beginning and its end. -/
theorem home_of {t u v : Trace} {l c : Nat} {a : Addr}
    (h1 : (u.all fun x => match x.1 with | .lisShare l' => l' != l | _ => true) = true)
    (h2 : ((t ++ u ++ v).all fun x => match x.1 with | .accept _ b => b != a | _ => true) = true)
    (h3 : ((t ++ u).all fun x => match x.1 with | .stubSend _ b _ => b != a | _ => true) = true) :
    Home (t ++ (.accept l a, .opened c a) :: (u ++ (.lisShare l, .none) :: v)) l c a := by
  rw [List.all_eq_true] at h1 h2 h3
  refine ⟨t, u, v, rfl, fun o h => ?_, fun l' o h => ?_, fun k m o h => ?_⟩
  · simpa using h1 _ h
  · simpa using h2 _ h
  · simpa using h3 _ h

/-- The history of an endpoint that serves an interface, up to the first client. -/
def Spec.Ep.served : Trace :=
  [(.serve ⟨1, 1⟩, .none), (.ep true, .none), (.ep true, .none), (.ep true, .none), (.ep true, .none),
    (.ep true, .serving 0 0 ⟨1, 1⟩), (.lisCmd 0, .none)]

/-- A client connects, asks, and is sent an answer. -/
def Spec.Ep.answering : Trace :=
  served ++ (.accept 0 8, .opened 0 8) :: ([(.packet 0 (.packet (frame msgA)), .none)] ++
    (.lisShare 0, .none) :: [(.route 0, .none), (.route 0, .routed 0 msgA 8), (.stubRecv 0, .message msgA 8),
      (.stubSend 0 8 msgB, .none), (.stubStep 0, .none), (.stubStep 0, .none)])

theorem answering_home : Home answering 0 0 8 := home_of (by decide +kernel) (by decide +kernel)
  (by decide +kernel)

theorem answering_kept : Serving answering 0 0 := by
  simp [Serving, answering, served]

/-- The answer is put into the queue of the client's connection, over UDP as over TCP. -/
example (dg : Bool) : ∃ s, Exec (step dg) init (answering ++ [(.stubStep 0, .accepted 0 msgB)]) s ∧
    Home answering 0 0 8 ∧ Serving answering 0 0 ∧ lastCall 0 answering = some (8, msgB) := by
  obtain ⟨tr, s, e, h⟩ := exec_by (step := step dg) (s := init)
    ((answering ++ [(Action.stubStep 0, Obs.accepted 0 msgB)]).map Prod.fst)
    (fun tr _ => decide (tr = answering ++ [(.stubStep 0, .accepted 0 msgB)]))
    (by cases dg <;> decide +kernel)
  rw [of_decide_eq_true h] at e
  exact ⟨s, e, answering_home, answering_kept, by decide +kernel⟩

/-- The same history before the call. -/
example (dg : Bool) : ∃ s, Exec (step dg) init (answering.take 13) s ∧
    Home (answering.take 13) 0 0 8 ∧ Serving (answering.take 13) 0 0 ∧ StubOpen 0 (answering.take 13) ∧
    inCall 0 (answering.take 13) = false ∧ s.peerLocked 8 = false ∧ (s.conns 0).cmds.length < connCap := by
  obtain ⟨tr, s, e, h⟩ := exec_by (step := step dg) (s := init) ((answering.take 13).map Prod.fst)
    (fun tr s => decide (tr = answering.take 13 ∧ (s.stubs 0).alive = true ∧ inCall 0 tr = false ∧
      s.peerLocked 8 = false ∧ (s.conns 0).cmds.length < connCap))
    (by cases dg <;> decide +kernel)
  obtain ⟨rfl, h1, h'⟩ := of_decide_eq_true h
  exact ⟨s, e, home_of (t := served) (u := [(.packet 0 (.packet (frame msgA)), .none)])
    (v := [(.route 0, .none), (.route 0, .routed 0 msgA 8), (.stubRecv 0, .message msgA 8)])
    (by decide +kernel) (by decide +kernel) (by decide +kernel), by simp [Serving, answering, served],
    (stub_open_iff e 0).mp h1, h'⟩

/-- A proxy that was asked for before the client connected has a connection opened afterwards. -/
example : ∃ tr s, Exec (step true) init (tr ++ [(.ep true, .opened 1 8)]) s ∧ Home tr 0 0 8 ∧
    Serving tr 0 0 := by
  let t : Trace := served ++ [(.proxy ⟨2, 1⟩ 8, .none), (.ep true, .none), (.ep true, .none),
    (.ep true, .none)]
  let t' : Trace := t ++ (.accept 0 8, .opened 0 8) :: ([] ++ (.lisShare 0, .none) :: [])
  obtain ⟨tr, s, e, h⟩ := exec_by (step := step true) (s := init)
    (t'.map Prod.fst ++ [.ep true])
    (fun tr _ => decide (tr = t' ++ [(.ep true, .opened 1 8)])) (by decide +kernel)
  rw [of_decide_eq_true h] at e
  exact ⟨_, s, e, home_of (by decide +kernel) (by decide +kernel) (by decide +kernel),
    by simp [t', t, Serving, served]⟩

/-- Stub `k` is the only one that sends to `a`, it is kept, and nobody connects from there. -/
def Spec.Ep.OnlySender (tr : Trace) (k : Nat) (a : Addr) : Prop :=
  (∀ j m o, (.stubSend j a m, o) ∈ tr → j = k) ∧ (∀ l o, (.accept l a, o) ∉ tr) ∧
    ∀ o, (.dropStub k, o) ∉ tr

theorem Spec.Ep.OnlySender.mono {t u : Trace} {k : Nat} {a : Addr} (h : OnlySender (t ++ u) k a) :
    OnlySender t k a ∧ OnlySender u k a :=
  ⟨⟨fun j m o h' => h.1 j m o (List.mem_append_left _ h'),
    fun l o h' => h.2.1 l o (List.mem_append_left _ h'), fun o h' => h.2.2 o (List.mem_append_left _ h')⟩,
   ⟨fun j m o h' => h.1 j m o (List.mem_append_right _ h'),
    fun l o h' => h.2.1 l o (List.mem_append_right _ h'),
    fun o h' => h.2.2 o (List.mem_append_right _ h')⟩⟩

/-- The connection has not ended. -/
def Spec.Ep.Runs (tr : Trace) (c : Nat) : Prop :=
  (∀ r, (.packet c r, .ended) ∉ tr) ∧ (.connCmd c, .ended) ∉ tr ∧ ∀ o, (.sent c false, o) ∉ tr

theorem Spec.Ep.Runs.mono {t u : Trace} {c : Nat} (h : Runs (t ++ u) c) : Runs t c ∧ Runs u c :=
  ⟨⟨fun r h' => h.1 r (List.mem_append_left _ h'), fun h' => h.2.1 (List.mem_append_left _ h'),
    fun o h' => h.2.2 o (List.mem_append_left _ h')⟩,
   ⟨fun r h' => h.1 r (List.mem_append_right _ h'), fun h' => h.2.1 (List.mem_append_right _ h'),
    fun o h' => h.2.2 o (List.mem_append_right _ h')⟩⟩

theorem solo_exec {dg : Bool} {t : Trace} {s : State} {k : Nat} {a : Addr}
    (e : Exec (step dg) init t s) (h : OnlySender t k a) : Solo s a k := by
  induction e with
  | nil => exact .init a k
  | snoc e hs ih =>
    obtain ⟨h1, h2⟩ := h.mono
    refine (ih h1).step (peers e) (good_hist e).1.fresh (move_of_step hs) ?_ ?_
    · rintro l rfl; exact h2.2.1 l _ (List.mem_singleton_self _)
    · rintro j m rfl; exact h2.1 j m _ (List.mem_singleton_self _)

theorem again_exec {dg : Bool} {t u : Trace} {s s' : State} {k c : Nat} {a : Addr}
    (e : Exec (step dg) init t s) (e' : Exec (step dg) s u s') (ht : OnlySender (t ++ u) k a)
    (hr : Runs u c) (hk : (s.stubs k).alive = true) (hc : (s.conns c).alive = true)
    (h : Homed s a c) : (s'.stubs k).alive = true ∧ (s'.conns c).alive = true ∧ Homed s' a c := by
  induction e' with
  | nil => exact ⟨hk, hc, h⟩
  | snoc e' hs ih =>
    rw [← List.append_assoc] at ht
    obtain ⟨a1, a2⟩ := ht.mono
    obtain ⟨r1, r2⟩ := hr.mono
    obtain ⟨i1, i2, i3⟩ := ih a1 r1
    have m := move_of_step hs
    have hp := peers (e.append e')
    obtain ⟨o1, o2⟩ := (solo_exec (e.append e') a1).own c i3.peer
    have k1 := m.stub_lives i1 (by rintro rfl; exact a2.2.2 _ (List.mem_singleton_self _)) o1
    have k2 := m.conn_alive i2 (by rintro r ⟨rfl, rfl⟩; exact r2.1 _ (List.mem_singleton_self _))
      (by rintro ⟨rfl, rfl⟩; exact r2.2.1 (List.mem_singleton_self _))
      (by rintro rfl; exact r2.2.2 _ (List.mem_singleton_self _)) (hp.peers a c i3.peer).1
    refine ⟨k1, k2, (i3.step hp m ?_ (stub_strong (good_hist (e.append e')).1.fresh (o2 i1)) k2).1⟩
    rintro l rfl
    exact a2.2.1 l _ (List.mem_singleton_self _)

/-- **C115.** A stub that has sent to an address over a connection goes on using it as long as it lives,
and does not fail: if it is the only one that sends to this address and nobody connects from there. -/
theorem C115_reuses {dg : Bool} {t v : Trace} {s : State} {k c : Nat} {a : Addr} {m m' : Msg} {o : Obs}
    (e : Exec (step dg) init (t ++ (.stubStep k, .accepted c m) :: v ++ [(.stubStep k, o)]) s)
    (ht : lastCall k t = some (a, m)) (h1 : OnlySender (t ++ (.stubStep k, .accepted c m) :: v) k a)
    (h2 : Runs v c) (hm : lastCall k (t ++ (.stubStep k, .accepted c m) :: v) = some (a, m')) :
    o = .none ∨ o = .accepted c m' := by
  obtain ⟨s₄, e₄, hs⟩ := e.last
  obtain ⟨s₁, e₁, e'⟩ := e₄.split
  obtain ⟨s₂, e₂, e₃⟩ := Exec.split (t := [_]) e'
  have h1' : OnlySender (t ++ [(.stubStep k, .accepted c m)] ++ v) k a := by simpa using h1
  have hs₂ := single e₂
  have so := solo_exec e₁ h1.mono.1
  have so' := solo_exec (e₁.append e₂) h1'.mono.1
  have hcall := call_of_step e₁ hs₂ ht
  have hh : (s₂.stubs k).alive = true ∧ (s₂.conns c).alive = true ∧ Homed s₂ a c := by
    have he := (good_hist e₁).1.ended.stubs k
    generalize hx : Action.stubStep k = x at hs₂
    have mv := move_of_step hs₂
    generalize ho : Obs.accepted c m = o' at mv
    cases mv <;> cases hx <;> cases ho
    rename_i b ha hq hw
    have hb : b = a := by rw [hw] at hcall; cases hcall; rfl
    subst hb
    have hp : (s₁.stubAt k .idle k).pc = .idle := by rw [stubAt_apply, if_pos rfl]
    have ni : ∀ j m', (s₁.stubAt k .idle j).pc.call ≠ some (b, m') := by
      intro j m' h
      have := so'.calls j m' h
      subst this
      rw [hp] at h
      cases h
    refine ⟨?_, ?_, so.sending m c hw, fun j m' h => ni j m' (h ▸ rfl), fun j m' d h => ni j m' (h ▸ rfl),
      fun j m' d h => ni j m' (h ▸ rfl), fun j m' d h => (ni j m' (h ▸ rfl)).elim, so'.share⟩
    · have hal : (s₁.stubs k).alive = true := by
        cases h : (s₁.stubs k).alive with
        | true => rfl
        | false => rw [(he h).2] at hw; cases hw
      simpa [stubAt_apply] using hal
    · simpa [upd] using ha
  obtain ⟨i1, i2, i3⟩ := again_exec (e₁.append e₂) e₃ h1' h2 hh.1 hh.2.1 hh.2.2
  have so₄ := solo_exec e₄ h1
  refine (i3.step (peers e₄) (move_of_step hs) (by simp)
    (stub_strong (good_hist e₄).1.fresh ((so₄.own c i3.peer).2 i1)) ?_).2 k m' rfl (call_of_step e₄ hs hm)
  exact (move_of_step hs).conn_alive i2 (by simp) (by simp) (by simp) ((peers e₄).peers a c i3.peer).1

/-- A stub sends to an address it has no connection to, and then again. -/
example : ∃ t v s, Exec (step true) init
      (t ++ (.stubStep 0, .accepted 0 msgA) :: v ++ [(.stubStep 0, .accepted 0 msgB)]) s ∧
    lastCall 0 t = some (8, msgA) ∧ OnlySender (t ++ (.stubStep 0, .accepted 0 msgA) :: v) 0 8 ∧ Runs v 0 ∧
    lastCall 0 (t ++ (.stubStep 0, .accepted 0 msgA) :: v) = some (8, msgB) := by
  let t : Trace := served ++ [(.stubSend 0 8 msgA, .none), (.stubStep 0, .none), (.stubStep 0, .none),
    (.ep true, .none), (.ep true, .opened 0 8), (.stubStep 0, .none), (.stubStep 0, .none)]
  let v : Trace := [(.connCmd 0, .none), (.stubSend 0 8 msgB, .none), (.stubStep 0, .none), (.stubStep 0, .none)]
  let w : Trace := t ++ (.stubStep 0, .accepted 0 msgA) :: v ++ [(.stubStep 0, .accepted 0 msgB)]
  obtain ⟨tr, s, e, h⟩ := exec_by (step := step true) (s := init) (w.map Prod.fst)
    (fun tr _ => decide (tr = w)) (by decide +kernel)
  rw [of_decide_eq_true h] at e
  exact ⟨t, v, s, e, by decide +kernel, by simp [OnlySender, t, v, served]; grind, by simp [Runs, v],
    by decide +kernel⟩

end Rsomeip
