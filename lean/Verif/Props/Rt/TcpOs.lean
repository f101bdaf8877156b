import Verif.Lemmas.TcpOs
import Verif.Props.Rt.TcpCarry
import Verif.Props.Rt.Why

/-! # C125: an endpoint on a TCP socket on Linux -/

namespace Rsomeip

open Rt Rt.TcpOs Spec Spec.Ep Someip
open Spec.TcpNode (app)

/-- Some interface is served: there is a stub, and no listener has failed. -/
def Spec.TcpOs.Serves (k : Nat) (t : Spec.Ep.Trace) : Prop :=
  StubOpen k t ∧ ∀ l, (.acceptNone l, .ended) ∉ t

open Spec.TcpOs

/-- A listener runs while an interface is served. -/
theorem serves_listens {dg : Bool} {t : Spec.Ep.Trace} {e : Ep.State} {k : Nat}
    (h : Exec (Ep.step dg) Ep.init t e) (hs : Serves k t) : (e.liss (e.stubs k).lis).alive = true := by
  have h1 := (Ep.stub_open_iff h k).mpr hs.1
  have h2 := (Ep.slot h).stubs k h1
  rw [← Bool.not_eq_false]
  intro h3
  exact hs.2 _ (Ep.lis_why h (Ep.listener_lt h h2)
    ((Ep.lisStrong_iff (Ep.good_hist h).1.fresh _).mpr (.inr ⟨k, h1, rfl⟩)) h3)

/-- **C125** is false on Linux: while an interface is served, the endpoint cannot connect to anybody: the
only connections are those it accepts. -/
theorem C125_no_connect {tr : Spec.TcpNode.Trace} {x : TcpNode.Action} {o : TcpNode.Obs} {s : State}
    {k c : Nat} {a : Addr} {y : Ep.Action} (e : Exec step init (tr ++ [(x, o)]) s)
    (hs : Serves k (app tr)) (ho : o.ep = some (y, .opened c a)) : ∃ l, y = .accept l a := by
  obtain ⟨s₁, e₁, hx⟩ := e.last
  obtain ⟨h1, new, hg, -⟩ := step_inv hx
  have h2 := serves_listens (hist e₁) hs
  have h3 : ¬ ∀ o ∈ s₁.table, conflict ⟨true, .fresh⟩ o = false := fun h => by
    rw [(socks e₁).free.1.mp h] at h2
    cases h2
  generalize s.node = n at h1
  cases TcpNode.move_of_step h1 with
  | app y' e' o' hp hq he =>
    clear hp hq
    simp only [Option.some.injEq, Prod.mk.injEq] at ho
    obtain ⟨rfl, rfl⟩ := ho
    generalize hw : Ep.Obs.opened c a = w at he
    have m := Ep.move_of_step he
    cases m <;> first
      | (cases hw; done)
      | (split at hw <;> cases hw)
      | skip
    case proxyConnect id a' hpc =>
      cases hg with
      | connect id a hpc hb hc => exact absurd hb h3
      | listen hm hb => exact absurd hb h3
      | none _ _ h4 => exact absurd hpc ((h4 rfl).1 _ _)
    case connectOk hd => cases hd
    case accept l a' _ _ => cases hw; exact ⟨l, rfl⟩
  | broken _ _ _ _ _ he =>
    cases ho; cases (Ep.move_of_step he)
  | read _ _ _ _ _ he =>
    simp only [Option.some.injEq, Prod.mk.injEq] at ho
    obtain ⟨rfl, rfl⟩ := ho
    generalize hw : Ep.Obs.opened c a = w at he
    cases Ep.move_of_step he <;> cases hw
  | done _ _ _ _ _ _ _ _ he =>
    simp only [Option.some.injEq, Prod.mk.injEq] at ho
    obtain ⟨rfl, rfl⟩ := ho
    generalize hw : Ep.Obs.opened c a = w at he
    cases Ep.move_of_step he; cases hw
  | failed _ _ _ _ _ _ _ _ _ he =>
    simp only [Option.some.injEq, Prod.mk.injEq] at ho
    obtain ⟨rfl, rfl⟩ := ho
    generalize hw : Ep.Obs.opened c a = w at he
    cases Ep.move_of_step he; cases hw
  | _ => cases ho

/-- An interface is served. -/
def Spec.TcpOs.serving : List TcpNode.Action :=
  [.app (.serve ⟨1, 1⟩), .app (.ep true), .app (.ep true), .app (.ep true), .app (.ep true),
    .app (.ep true), .app (.lisCmd 0)]

/-- A remote connects while an interface is served. -/
example : ∃ tr x o s, Exec step init (tr ++ [(x, o)]) s ∧ Serves 0 (app tr) ∧
    o.ep = some (.accept 0 8, .opened 0 8) := by
  obtain ⟨tr, s, e, h⟩ := exec_by (step := step) (s := init) serving
    (fun tr s => decide ((.ep true, .serving 0 0 ⟨1, 1⟩) ∈ app tr ∧ (.dropStub 0, .none) ∉ app tr ∧
      (∀ y ∈ app tr, ∀ l ∈ [y.1], (match l with | .acceptNone _ => false | _ => true) = true) ∧
      (step s (.app (.accept 0 8))).map (fun x => x.2.ep) = some (some (.accept 0 8, .opened 0 8))))
    (by decide +kernel)
  obtain ⟨h1, h2, h3, h4⟩ := of_decide_eq_true h
  cases h5 : step s (.app (.accept 0 8)) with
  | none => rw [h5] at h4; cases h4
  | some x =>
    refine ⟨tr, _, x.2, x.1, e.snoc h5, ⟨⟨⟨0, ⟨1, 1⟩, _, h1⟩, h2⟩, fun l hl => ?_⟩, by simpa [h5] using h4⟩
    simpa using h3 _ hl _ (List.mem_singleton.mpr rfl)

/-- **C125** is false on Linux: once an interface is served and as long as its stub is kept, there is no
proxy for a remote to which there has been no connection before and that does not connect by itself. -/
theorem C125_no_proxy {t u : Spec.TcpNode.Trace} {s : State} {k : Nat} {a : Addr}
    (e : Exec step init (t ++ u) s) (hs : Serves k (app t)) (hk : (.dropStub k, .none) ∉ app u)
    (hl : ∀ l, (.acceptNone l, .ended) ∉ app u) (ha : ∀ c, ¬ Shown (app t) (.opened c a))
    (hb : ∀ l o, (.accept l a, o) ∉ app u) (p i : Nat) (id : InterfaceId) :
    ¬ Shown (app u) (.proxying p i id a) := by
  rintro ⟨y, hy⟩
  have e1 := hist e
  have happ (v w : Spec.TcpNode.Trace) : app (v ++ w) = app v ++ app w := List.filterMap_append ..
  rw [happ] at e1
  obtain ⟨h1, -, h2, -⟩ := (Ep.made e1).proxy p i id a ⟨y, List.mem_append_right _ hy⟩
  obtain ⟨h3, h4⟩ := (Ep.peers e1).proxies p h1
  have h5 := (Ep.good_hist e1).2.conns _ h3
  rw [h4, h2] at h5
  obtain ⟨z, h5⟩ := h5
  rcases List.mem_append.mp h5 with h5 | h5
  · exact ha _ ⟨z, h5⟩
  · obtain ⟨⟨x, o⟩, h6, h7⟩ := List.mem_filterMap.mp h5
    obtain ⟨u₁, u₂, rfl⟩ := List.append_of_mem h6
    rw [List.append_cons, ← List.append_assoc, ← List.append_assoc] at e
    obtain ⟨s₁, e2, -⟩ := e.split
    rw [happ] at hk hl
    have h8 : Serves k (app (t ++ u₁)) := by
      rw [happ]
      refine ⟨⟨hs.1.1.imp fun _ => .imp fun _ h => h.mono _, fun h => ?_⟩, fun l h => ?_⟩
      · exact (List.mem_append.mp h).elim hs.1.2 fun h => hk (List.mem_append_left _ h)
      · exact (List.mem_append.mp h).elim (hs.2 l) fun h => hl l (List.mem_append_left _ h)
    obtain ⟨l, rfl⟩ := C125_no_connect e2 h8 h7
    exact hb l _ h5

/-- An interface is served, and a proxy is asked for: the endpoint cannot connect. -/
example : ∃ t u s, Exec step init (t ++ u) s ∧ Serves 0 (app t) ∧ (.dropStub 0, .none) ∉ app u ∧
    (∀ l, (.acceptNone l, .ended) ∉ app u) ∧ (∀ c, ¬ Shown (app t) (.opened c 7)) ∧
    (∀ l o, (.accept l 7, o) ∉ app u) ∧ (.ep false, .proxyFailed ⟨2, 1⟩ 7 .io) ∈ app u := by
  let t : Spec.TcpNode.Trace := ([(.serve ⟨1, 1⟩, .none), (.ep true, .none), (.ep true, .none),
    (.ep true, .none), (.ep true, .none), (.ep true, .serving 0 0 ⟨1, 1⟩), (.lisCmd 0, .none)] :
      Spec.Ep.Trace).map fun y => (.app y.1, ⟨some y, none⟩)
  let u : Spec.TcpNode.Trace := ([(.proxy ⟨2, 1⟩ 7, .none), (.ep true, .none), (.ep true, .none),
    (.ep true, .none), (.ep false, .proxyFailed ⟨2, 1⟩ 7 .io)] : Spec.Ep.Trace).map
      fun y => (.app y.1, ⟨some y, none⟩)
  obtain ⟨tr, s, e, h⟩ := exec_by (step := step) (s := init) ((t ++ u).map Prod.fst)
    (fun tr _ => decide (tr = t ++ u)) (by decide +kernel)
  rw [of_decide_eq_true h] at e
  refine ⟨t, u, s, e, ⟨⟨⟨0, ⟨1, 1⟩, .ep true, by decide⟩, by decide⟩, ?_⟩, by decide, ?_, ?_, ?_, by decide⟩
  · simp [t, app]
  · simp [u, app]
  · simp [t, app, Shown]
  · simp [u, app]

/-- **C125** is false on Linux: after the last stub was dropped, an interface cannot be served as long as
the task of the old listener has not ended. -/
theorem C125_no_listen {tr : Spec.TcpNode.Trace} {s : State} (e : Exec step init tr s) {l : Nat}
    (h : (s.node.ep.liss l).alive = true) (hm : mustListen s.node.ep = true) :
    step s (.app (.ep true)) = none := by
  cases h1 : step s (.app (.ep true)) with
  | none => rfl
  | some x =>
    obtain ⟨s', o⟩ := x
    obtain ⟨h2, new, hg, -⟩ := step_inv h1
    have h3 : ¬ ∀ o ∈ s.table, conflict ⟨true, .fresh⟩ o = false := fun h4 => by
      rw [(socks e).free.1.mp h4] at h
      cases h
    cases hg with
    | connect _ _ _ hb => exact absurd hb h3
    | listen _ hb => exact absurd hb h3
    | none _ _ h4 => rw [(h4 rfl).2] at hm; cases hm

/-- The stub is dropped and another interface is to be served at once. -/
example : ∃ tr s, Exec step init tr s ∧ (s.node.ep.liss 0).alive = true ∧
    mustListen s.node.ep = true ∧ (.dropStub 0, .none) ∈ app tr :=
  let ⟨tr, s, e, h⟩ := exec_by (step := step) (s := init)
    (serving ++ [.app (.dropStub 0), .app (.serve ⟨2, 1⟩), .app (.ep true), .app (.ep true)])
    (fun tr s => decide ((s.node.ep.liss 0).alive = true ∧ mustListen s.node.ep = true ∧
      (.dropStub 0, .none) ∈ app tr)) (by decide +kernel)
  ⟨tr, s, e, of_decide_eq_true h⟩

/-- **C125.** While no listener runs, connecting to a remote to which there is no connection is refused
only by the network or the remote. (Missing: while an interface is served, see `C125_no_connect` and
`C125_no_proxy`.) -/
theorem C125_connect_partial {tr : Spec.TcpNode.Trace} {s : State} (e : Exec step init tr s)
    {id : InterfaceId} {a : Addr} (hl : ∀ l, (s.node.ep.liss l).alive = false)
    (hpc : s.node.ep.pc = .proxyConnect id a)
    (ha : ∀ c, Shown (app tr) (.opened c a) → ConnOver c (app tr)) :
    ∃ s' c, step s (.app (.ep true)) = some (s', ⟨some (.ep true, .opened c a), none⟩) := by
  have h1 : Gets s (.app (.ep true)) [(.conn s.node.ep.connCount, ⟨true, .connected a⟩)] := by
    refine .connect id a hpc ((socks e).free.1.mpr hl) (((socks e).free.2 a).mpr fun c hc h => ?_)
    have h2 := (Ep.conn_open_iff (hist e) c).mp hc
    have h3 := (Ep.good_hist (hist e)).2.conns c (Ep.alive_lt (Ep.good_hist (hist e)).1.fresh hc)
    rw [h] at h3
    exact h2.2 (ha c h3)
  have h2 : TcpNode.step s.node (.app (.ep true)) =
      some ({ s.node with ep := { s.node.ep with
          conns := upd s.node.ep.conns s.node.ep.connCount (Ep.newConn a)
          connCount := s.node.ep.connCount + 1
          pc := .proxyShare id a s.node.ep.connCount } },
        ⟨some (.ep true, .opened s.node.ep.connCount a), none⟩) := by
    simp [TcpNode.step, TcpNode.does, Ep.step, Ep.ep, hpc]
  obtain ⟨s', h3⟩ := step_of h1 h2
  exact ⟨s', _, h3⟩

/-- A proxy is asked for, and nothing is served. -/
example : ∃ tr s, Exec step init tr s ∧ (∀ l, (s.node.ep.liss l).alive = false) ∧
    s.node.ep.pc = .proxyConnect ⟨2, 1⟩ 7 ∧
    ∀ c, Shown (app tr) (.opened c 7) → ConnOver c (app tr) := by
  obtain ⟨tr, s, e, h⟩ := exec_by (step := step) (s := init)
    [.app (.proxy ⟨2, 1⟩ 7), .app (.ep true), .app (.ep true), .app (.ep true)]
    (fun _ s => decide (s.node.ep.lisCount = 0 ∧ s.node.ep.pc = .proxyConnect ⟨2, 1⟩ 7 ∧
      s.node.ep.connCount = 0)) (by decide +kernel)
  obtain ⟨h1, h2, h3⟩ := of_decide_eq_true h
  refine ⟨tr, s, e, fun l => ?_, h2, fun c hc => ?_⟩
  · rw [(Ep.good_hist (hist e)).1.fresh.liss l (by omega)]
  · have := (Ep.opened_addr (hist e) hc).1
    omega

/-- **C125.** While no listener runs, listening is not refused, whatever connections there are. (Missing:
while the task of an old listener has not ended, see `C125_no_listen`.) -/
theorem C125_listen_partial {tr : Spec.TcpNode.Trace} {s : State} (e : Exec step init tr s)
    (hl : ∀ l, (s.node.ep.liss l).alive = false) (hm : mustListen s.node.ep = true) :
    ∃ s', step s (.app (.ep true)) = some (s', ⟨some (.ep true, .none), none⟩) := by
  have h1 : Gets s (.app (.ep true)) [(.lis s.node.ep.lisCount, ⟨true, .listening⟩)] :=
    .listen hm ((socks e).free.1.mpr hl)
  have h2 : ∃ n, TcpNode.step s.node (.app (.ep true)) = some (n, ⟨some (.ep true, .none), none⟩) := by
    unfold mustListen at hm
    split at hm
    · simp_all [TcpNode.step, TcpNode.does, Ep.step, Ep.ep]
    · simp_all [TcpNode.step, TcpNode.does, Ep.step, Ep.ep]
    · cases hm
  obtain ⟨n, h2⟩ := h2
  exact step_of h1 h2

/-- There is a connection, and an interface is to be served. -/
example : ∃ tr s, Exec step init tr s ∧ (∀ l, (s.node.ep.liss l).alive = false) ∧
    mustListen s.node.ep = true ∧ s.table = [⟨true, .connected 7⟩] := by
  obtain ⟨tr, s, e, h⟩ := exec_by (step := step) (s := init)
    (Spec.TcpNode.sending.take 7 ++ [.app (.serve ⟨1, 1⟩), .app (.ep true), .app (.ep true)])
    (fun _ s => decide (s.node.ep.lisCount = 0 ∧ mustListen s.node.ep = true ∧
      s.table = [⟨true, .connected 7⟩])) (by decide +kernel)
  obtain ⟨h1, h2, h3⟩ := of_decide_eq_true h
  refine ⟨tr, s, e, fun l => ?_, h2, h3⟩
  rw [(Ep.good_hist (hist e)).1.fresh.liss l (by omega)]

/-- **C125.** On Linux there are never two connections to the same remote at the same time. -/
theorem C125_one_per_remote {tr : Spec.TcpNode.Trace} {s : State} (e : Exec step init tr s) {c d : Nat}
    {a : Addr} (hc : Shown (app tr) (.opened c a)) (hd : Shown (app tr) (.opened d a))
    (hc' : ¬ ConnOver c (app tr)) (hd' : ¬ ConnOver d (app tr)) : c = d := by
  have h1 := Ep.opened_addr (hist e) hc
  have h2 := Ep.opened_addr (hist e) hd
  refine (socks e).conns c d ((Ep.conn_open_iff (hist e) c).mpr ⟨⟨a, hc⟩, hc'⟩)
    ((Ep.conn_open_iff (hist e) d).mpr ⟨⟨a, hd⟩, hd'⟩) ?_
  rw [h1.2, h2.2]

/-- **C125.** The endpoint has as many sockets as it has running listeners and connections, each has one,
and at most one listens: what fails leaves nothing behind. -/
theorem C125_sockets {tr : Spec.TcpNode.Trace} {s : State} (e : Exec step init tr s) :
    (s.socks.map Prod.fst).Nodup ∧ (∀ w, w ∈ s.socks.map Prod.fst ↔ running s.node.ep w = true) ∧
    ∀ l l', .lis l ∈ s.socks.map Prod.fst → .lis l' ∈ s.socks.map Prod.fst → l = l' := by
  have h := socks e
  have h1 : ∀ w, w ∈ s.socks.map Prod.fst ↔ running s.node.ep w = true := fun w =>
    ⟨fun hw => by obtain ⟨y, h2, rfl⟩ := List.mem_map.mp hw; exact (h.all y h2).1,
      fun hw => List.mem_map.mpr ⟨_, h.every w hw, rfl⟩⟩
  exact ⟨h.nodup, h1, fun l l' hl hl' => h.lis l l' ((h1 _).mp hl) ((h1 _).mp hl')⟩

/-- A connection ends and the remote connects again: two connections, one after the other. -/
example : ∃ tr s, Exec step init tr s ∧ Shown (app tr) (.opened 0 8) ∧ Shown (app tr) (.opened 1 8) ∧
    ConnOver 0 (app tr) ∧ s.socks.map Prod.fst = [.conn 1, .lis 0] := by
  obtain ⟨tr, s, e, h⟩ := exec_by (step := step) (s := init)
    (serving ++ [.app (.accept 0 8), .app (.lisShare 0), .read 0 .failed, .app (.accept 0 8)])
    (fun tr s => decide ((.accept 0 8, .opened 0 8) ∈ app tr ∧ (.accept 0 8, .opened 1 8) ∈ app tr ∧
      (.packet 0 .closed, .ended) ∈ app tr ∧ s.socks.map Prod.fst = [.conn 1, .lis 0]))
    (by decide +kernel)
  obtain ⟨h1, h2, h3, h4⟩ := of_decide_eq_true h
  exact ⟨tr, s, e, ⟨_, h1⟩, ⟨_, h2⟩, .inl ⟨_, h3⟩, h4⟩

end Rsomeip
