import Verif.Lemmas.TcpNode
import Verif.Lemmas.EpWords
import Verif.Rt.TcpOs

/-! # The sockets of the operating system -/

namespace Rsomeip.Rt.TcpOs

/-- `connect` succeeds if nobody listens, the address is shared by all, and there is no connection with
the same remote. -/
theorem tcpConnect_ok {t : List Sock} {a : Addr} {ok : Bool} {k : Sock} :
    tcpConnect t a ok = .ok k ↔ ok = true ∧ k = ⟨true, .connected a⟩ ∧
      (∀ o ∈ t, conflict ⟨true, .fresh⟩ o = false) ∧ ∀ o ∈ t, o.role ≠ .connected a := by
  cases ok with
  | false => simp [tcpConnect, newSocket, Bind.bind, Except.bind]
  | true =>
    by_cases h1 : t.any (conflict ⟨true, .fresh⟩) = true
    · have h2 : ¬ ∀ o ∈ t, conflict ⟨true, .fresh⟩ o = false := by
        obtain ⟨o, h3, h4⟩ := List.any_eq_true.mp h1
        intro h; rw [h o h3] at h4; cases h4
      simp [tcpConnect, newSocket, Bind.bind, Except.bind, bind, setReuse, h1, h2]
    · have h2 : ∀ o ∈ t, conflict ⟨true, .fresh⟩ o = false := by simpa using h1
      by_cases h3 : t.any (fun o => decide (o.role = .connected a)) = true
      · have h4 : ¬ ∀ o ∈ t, o.role ≠ .connected a := by
          obtain ⟨o, h5, h6⟩ := List.any_eq_true.mp h3
          exact fun h => h o h5 (of_decide_eq_true h6)
        simp only [tcpConnect, newSocket, Bind.bind, Except.bind, bind, setReuse, h1, connect, h3,
          if_true, h4, and_false]
        simp
      · have h4 : ∀ o ∈ t, o.role ≠ .connected a := by simpa using h3
        simp only [tcpConnect, newSocket, Bind.bind, Except.bind, bind, setReuse, h1, connect, h3,
          if_true, true_and]
        exact ⟨fun h => ⟨(Except.ok.inj h).symm, h2, h4⟩, fun h => by rw [h.1]; rfl⟩

/-- `listen` succeeds if nobody listens and the address is shared by all. -/
theorem tcpListen_ok {t : List Sock} {ok : Bool} {k : Sock} :
    tcpListen t ok = .ok k ↔ ok = true ∧ k = ⟨true, .listening⟩ ∧
      ∀ o ∈ t, conflict ⟨true, .fresh⟩ o = false := by
  cases ok with
  | false => simp [tcpListen, newSocket, Bind.bind, Except.bind]
  | true =>
    by_cases h1 : t.any (conflict ⟨true, .fresh⟩) = true
    · have h2 : ¬ ∀ o ∈ t, conflict ⟨true, .fresh⟩ o = false := by
        obtain ⟨o, h3, h4⟩ := List.any_eq_true.mp h1
        intro h; rw [h o h3] at h4; cases h4
      simp [tcpListen, newSocket, Bind.bind, Except.bind, bind, setReuse, h1, h2]
    · have h2 : ∀ o ∈ t, conflict ⟨true, .fresh⟩ o = false := by simpa using h1
      have h3 : ¬ t.any (fun o => decide (o.role = .listening)) = true := by
        simp only [List.any_eq_true, decide_eq_true_eq, not_exists, not_and]
        intro o ho h
        have := h2 o ho
        simp [conflict, h] at this
      simp only [tcpListen, newSocket, Bind.bind, Except.bind, bind, setReuse, h1, listen, h3,
          if_true, true_and]
      exact ⟨fun h => ⟨(Except.ok.inj h).symm, h2⟩, fun h => by rw [h.1]; rfl⟩

theorem connect_ok {t : List Sock} {a : Addr} {k k' : Sock} :
    connect t k a = .ok k' ↔ k' = { k with role := .connected a } ∧ ∀ o ∈ t, o.role ≠ .connected a := by
  unfold connect
  by_cases h : t.any (fun o => decide (o.role = .connected a)) = true
  · have h4 : ¬ ∀ o ∈ t, o.role ≠ .connected a := by
      obtain ⟨o, h5, h6⟩ := List.any_eq_true.mp h
      exact fun h => h o h5 (of_decide_eq_true h6)
    simp only [h, if_true, h4, and_false]
    simp
  · have h4 : ∀ o ∈ t, o.role ≠ .connected a := by simpa using h
    rw [if_neg h]
    exact ⟨fun h => ⟨(Except.ok.inj h).symm, h4⟩, fun h => by rw [h.1]⟩

/-- The new sockets of a step. -/
inductive Gets (s : State) : TcpNode.Action → List (Owner × Sock) → Prop where
  | connect (id a) (hpc : s.node.ep.pc = .proxyConnect id a)
      (hb : ∀ o ∈ s.table, conflict ⟨true, .fresh⟩ o = false)
      (hc : ∀ o ∈ s.table, o.role ≠ .connected a) :
      Gets s (.app (.ep true)) [(.conn s.node.ep.connCount, ⟨true, .connected a⟩)]
  | listen (hm : mustListen s.node.ep = true)
      (hb : ∀ o ∈ s.table, conflict ⟨true, .fresh⟩ o = false) :
      Gets s (.app (.ep true)) [(.lis s.node.ep.lisCount, ⟨true, .listening⟩)]
  | accept (l a) (hc : ∀ o ∈ s.table, o.role ≠ .connected a) :
      Gets s (.app (.accept l a)) [(.conn s.node.ep.connCount, ⟨true, .connected a⟩)]
  | none (x) (ha : ∀ l a, x ≠ .app (.accept l a))
      (hc : x = .app (.ep true) → (∀ id a, s.node.ep.pc ≠ .proxyConnect id a) ∧
        mustListen s.node.ep = false) : Gets s x []

theorem go_inv {s s' : State} {x : TcpNode.Action} {o : TcpNode.Obs} {new : List (Owner × Sock)}
    (h : go s x new = some (s', o)) : TcpNode.step s.node x = some (s'.node, o) ∧
      s'.socks = (new ++ s.socks).filter fun y => running s'.node.ep y.1 := by
  unfold go at h
  split at h
  · cases h; exact ⟨‹_›, rfl⟩
  · cases h

theorem after_inv {s s' : State} {x : TcpNode.Action} {o : TcpNode.Obs} {w : Owner}
    {r : Except Err Sock} (h : after s x w r = some (s', o)) :
    ∃ k, r = .ok k ∧ go s x [(w, k)] = some (s', o) := by
  cases r with
  | ok k => exact ⟨k, rfl, h⟩
  | error => cases h

/-- A step of the endpoint with its new sockets. -/
theorem step_inv {s s' : State} {x : TcpNode.Action} {o : TcpNode.Obs} (h : step s x = some (s', o)) :
    TcpNode.step s.node x = some (s'.node, o) ∧ ∃ new, Gets s x new ∧
      s'.socks = (new ++ s.socks).filter fun y => running s'.node.ep y.1 := by
  unfold step at h
  split at h
  · split at h
    · obtain ⟨k, h1, h2⟩ := after_inv h
      obtain ⟨-, rfl, h3, h4⟩ := tcpConnect_ok.mp h1
      exact ⟨(go_inv h2).1, _, .connect _ _ ‹_› h3 h4, (go_inv h2).2⟩
    · split at h
      · obtain ⟨k, h1, h2⟩ := after_inv h
        obtain ⟨-, rfl, h3⟩ := tcpListen_ok.mp h1
        exact ⟨(go_inv h2).1, _, .listen ‹_› h3, (go_inv h2).2⟩
      · rename_i h1 h2
        exact ⟨(go_inv h).1, _, .none _ nofun (fun _ => ⟨fun id a h => h1 id a h, by simpa using h2⟩),
          (go_inv h).2⟩
  · obtain ⟨k, h1, h2⟩ := after_inv h
    obtain ⟨rfl, h3⟩ := connect_ok.mp h1
    exact ⟨(go_inv h2).1, _, .accept _ _ h3, (go_inv h2).2⟩
  · rename_i h1 h2
    exact ⟨(go_inv h).1, _, .none _ (fun l a h => h2 l a h) (fun h => absurd h h1), (go_inv h).2⟩

/-- A step with these new sockets. -/
theorem step_of {s : State} {n : TcpNode.State} {x : TcpNode.Action} {o : TcpNode.Obs}
    {new : List (Owner × Sock)} (hg : Gets s x new) (h : TcpNode.step s.node x = some (n, o)) :
    ∃ s', step s x = some (s', o) := by
  cases hg with
  | connect id a hpc hb hc =>
    have : tcpConnect s.table a true = .ok ⟨true, .connected a⟩ := tcpConnect_ok.mpr ⟨rfl, rfl, hb, hc⟩
    simp [step, hpc, this, after, go, h]
  | listen hm hb =>
    have h1 : tcpListen s.table true = .ok ⟨true, .listening⟩ := tcpListen_ok.mpr ⟨rfl, rfl, hb⟩
    simp only [step]
    split
    · rename_i id a hp; simp [mustListen, hp] at hm
    · simp [hm, h1, after, go, h]
  | accept l a hc =>
    have h1 : connect s.table ⟨true, .bound⟩ a = .ok ⟨true, .connected a⟩ := connect_ok.mpr ⟨rfl, hc⟩
    simp [step, h1, after, go, h]
  | none _ ha hc =>
    unfold step
    split
    · obtain ⟨h1, h2⟩ := hc rfl
      split
      · exact absurd ‹_› (h1 _ _)
      · simp [h2, go, h]
    · exact absurd rfl (ha _ _)
    · simp [go, h]

/-- Every history is one of an endpoint on a TCP socket. -/
theorem node {tr : Spec.TcpNode.Trace} {s : State} (e : Exec step init tr s) :
    Exec TcpNode.step TcpNode.init tr s.node := by
  induction e with
  | nil => exact .nil
  | snoc _ h ih => exact .snoc ih (step_inv h).1

theorem hist {tr : Spec.TcpNode.Trace} {s : State} (e : Exec step init tr s) :
    Exec (Ep.step false) Ep.init (Spec.TcpNode.app tr) s.node.ep := TcpNode.part (node e)

/-- The tasks that start in a step of an endpoint over streams. -/
theorem starts {e e' : Ep.State} {x : Ep.Action} {o : Ep.Obs} (m : Ep.Move false e x o e') :
    (∀ l, (e'.liss l).alive = true → (e.liss l).alive = true ∨
      l = e.lisCount ∧ x = .ep true ∧ mustListen e = true) ∧
    ∀ c, (e'.conns c).alive = true → (e.conns c).alive = true ∨ c = e.connCount ∧
      ((x = .ep true ∧ ∃ id, e.pc = .proxyConnect id (e'.conns c).addr) ∨
        ∃ l, x = .accept l (e'.conns c).addr) := by
  refine ⟨fun l => ?_, fun c => ?_⟩
  · cases m
    case serveNew id hpc hl =>
      have h1 : mustListen e = true := by
        unfold mustListen
        rw [hpc]
        cases h : e.listener with
        | none => rfl
        | some l => simp [hl l h]
      intro h
      by_cases h2 : l = e.lisCount
      · exact .inr ⟨h2, rfl, h1⟩
      · left; simpa [upd, h2] using h
    all_goals first | exact .inl | grind [upd, Ep.deadLis]
  · cases m
    case accept l a ha hw =>
      intro h
      by_cases h2 : c = e.connCount
      · exact .inr ⟨h2, .inr ⟨l, by rw [h2]; simp [upd, Ep.newConn]⟩⟩
      · left; simpa [upd, h2] using h
    all_goals first | exact .inl | grind [upd, Ep.Conn.ended, Ep.newConn]

/-- The socket of a task. -/
def want (e : Ep.State) : Owner → Sock
  | .lis _ => ⟨true, .listening⟩
  | .conn c => ⟨true, .connected (e.conns c).addr⟩

/-- The sockets are those of the running tasks, one for each; one task listens at most, and no two
connections have the same remote. -/
structure Socks (s : State) : Prop where
  all : ∀ y ∈ s.socks, running s.node.ep y.1 = true ∧ y.2 = want s.node.ep y.1
  every : ∀ w, running s.node.ep w = true → (w, want s.node.ep w) ∈ s.socks
  nodup : (s.socks.map Prod.fst).Nodup
  lis : ∀ l l', (s.node.ep.liss l).alive = true → (s.node.ep.liss l').alive = true → l = l'
  conns : ∀ c d, (s.node.ep.conns c).alive = true → (s.node.ep.conns d).alive = true →
    (s.node.ep.conns c).addr = (s.node.ep.conns d).addr → c = d

/-- A step of an endpoint on a TCP socket is one of the endpoint or leaves it alone. -/
theorem ep_step {n n' : TcpNode.State} {x : TcpNode.Action} {o : TcpNode.Obs}
    (h : TcpNode.step n x = some (n', o)) : (n'.ep = n.ep ∧ ∀ y, x ≠ .app y) ∨
      ∃ y w, Ep.Move false n.ep y w n'.ep ∧ (x = .app y ∨ (∀ z, x ≠ .app z) ∧
        ((∃ c r, y = .packet c r) ∨ ∃ c ok, y = .sent c ok)) := by
  cases TcpNode.move_of_step h
  case app he => exact .inr ⟨_, _, Ep.move_of_step he, .inl rfl⟩
  case broken he => exact .inr ⟨_, _, Ep.move_of_step he, .inr ⟨nofun, .inl ⟨_, _, rfl⟩⟩⟩
  case read he => exact .inr ⟨_, _, Ep.move_of_step he, .inr ⟨nofun, .inl ⟨_, _, rfl⟩⟩⟩
  case done he => exact .inr ⟨_, _, Ep.move_of_step he, .inr ⟨nofun, .inr ⟨_, _, rfl⟩⟩⟩
  case failed he => exact .inr ⟨_, _, Ep.move_of_step he, .inr ⟨nofun, .inr ⟨_, _, rfl⟩⟩⟩
  all_goals exact .inl ⟨rfl, nofun⟩

/-- The tasks that start in a step get the new sockets. -/
theorem new_tasks {s : State} {n : TcpNode.State} {x : TcpNode.Action} {o : TcpNode.Obs}
    {new : List (Owner × Sock)} (hg : Gets s x new) (h : TcpNode.step s.node x = some (n, o))
    (hf : Ep.Fresh s.node.ep) (w : Owner) (hw : running n.ep w = true) :
    (running s.node.ep w = true ∧ want n.ep w = want s.node.ep w ∧ w ∉ new.map Prod.fst) ∨
      new = [(w, want n.ep w)] ∧ running s.node.ep w = false := by
  have hl : running s.node.ep (.lis s.node.ep.lisCount) = false := by
    simp [running, hf.liss _ (Nat.le_refl _)]
  have hc : running s.node.ep (.conn s.node.ep.connCount) = false := by
    simp [running, hf.conns _ (Nat.le_refl _)]
  have hn : running s.node.ep w = true → w ∉ new.map Prod.fst := by
    intro hr hm
    cases hg <;> simp only [List.map_cons, List.map_nil, List.mem_singleton, List.not_mem_nil] at hm <;>
      simp [hm, hl, hc] at hr
  rcases ep_step h with ⟨h1, h2⟩ | ⟨y, w', m, h1⟩
  · rw [h1] at hw ⊢
    exact .inl ⟨hw, rfl, hn hw⟩
  · have hx : (∃ ok, y = .ep ok) ∨ (∃ l a, y = .accept l a) → x = .app y := by
      intro h2
      rcases h1 with h1 | ⟨-, ⟨c, r, rfl⟩ | ⟨c, ok, rfl⟩⟩
      · exact h1
      · rcases h2 with ⟨_, h2⟩ | ⟨_, _, h2⟩ <;> cases h2
      · rcases h2 with ⟨_, h2⟩ | ⟨_, _, h2⟩ <;> cases h2
    cases w with
    | lis l =>
      rcases (starts m).1 l hw with h2 | ⟨rfl, rfl, h2⟩
      · exact .inl ⟨h2, rfl, hn h2⟩
      · have hx := hx (.inl ⟨_, rfl⟩)
        subst hx
        refine .inr ⟨?_, hl⟩
        cases hg with
        | connect id a hpc => simp [mustListen, hpc] at h2
        | listen => rfl
        | none _ _ h3 => rw [(h3 rfl).2] at h2; cases h2
    | conn c =>
      rcases (starts m).2 c hw with h2 | ⟨rfl, ⟨rfl, id, h2⟩ | ⟨l, h2⟩⟩
      · refine .inl ⟨h2, ?_, hn h2⟩
        have h3 : c < s.node.ep.connCount := by
          refine Nat.lt_of_not_le fun h4 => ?_
          rw [hf.conns c h4] at h2
          cases h2
        simp [want, (m.conn_keep h3).2]
      · have hx := hx (.inl ⟨_, rfl⟩)
        subst hx
        refine .inr ⟨?_, hc⟩
        cases hg with
        | connect id a hpc => rw [hpc] at h2; cases h2; rfl
        | listen h3 => simp [mustListen, h2] at h3
        | none _ _ h3 => exact absurd h2 ((h3 rfl).1 _ _)
      · have hx := hx (.inr ⟨_, _, h2⟩)
        rw [h2] at hx
        subst hx
        refine .inr ⟨?_, hc⟩
        cases hg with
        | accept => rfl
        | none _ h3 => exact absurd rfl (h3 _ _)

/-- Nobody listens, and nobody is connected to `a`, if no socket says so. -/
theorem Socks.free {s : State} (h : Socks s) :
    ((∀ o ∈ s.table, conflict ⟨true, .fresh⟩ o = false) ↔ ∀ l, (s.node.ep.liss l).alive = false) ∧
    ∀ a, (∀ o ∈ s.table, o.role ≠ .connected a) ↔
      ∀ c, (s.node.ep.conns c).alive = true → (s.node.ep.conns c).addr ≠ a := by
  refine ⟨⟨fun h1 l => ?_, fun h1 o ho => ?_⟩, fun a => ⟨fun h1 c hc ha => ?_, fun h1 o ho hr => ?_⟩⟩
  · cases h2 : (s.node.ep.liss l).alive with
    | false => rfl
    | true =>
      have h3 := h1 _ (List.mem_map_of_mem (f := Prod.snd) (h.every (.lis l) h2))
      simp [want, conflict] at h3
  · obtain ⟨⟨w, k⟩, h2, rfl⟩ := List.mem_map.mp ho
    obtain ⟨h3, h4⟩ := h.all _ h2
    cases w with
    | lis l => rw [show running s.node.ep (.lis l) = _ from h1 l] at h3; cases h3
    | conn c =>
      have h4 : k = ⟨true, .connected (s.node.ep.conns c).addr⟩ := h4
      simp [h4, conflict]
  · exact h1 _ (List.mem_map_of_mem (f := Prod.snd) (h.every (.conn c) hc)) (by simp [want, ha])
  · obtain ⟨⟨w, k⟩, h2, rfl⟩ := List.mem_map.mp ho
    obtain ⟨h3, h4⟩ := h.all _ h2
    cases w with
    | lis l =>
      have h4 : k = ⟨true, .listening⟩ := h4
      simp [h4] at hr
    | conn c =>
      have h4 : k = ⟨true, .connected (s.node.ep.conns c).addr⟩ := h4
      simp only [h4, Role.connected.injEq] at hr
      exact h1 c h3 hr

theorem socks {tr : Spec.TcpNode.Trace} {s : State} (e : Exec step init tr s) : Socks s := by
  induction e with
  | nil =>
    constructor <;> simp [init, TcpNode.init, Ep.init]
    intro w
    cases w <;> simp [running]
  | @snoc tr s s' x o e hs ih =>
    obtain ⟨h1, new, hg, h2⟩ := step_inv hs
    have hf := (Ep.good_hist (hist e)).1.fresh
    have hn := new_tasks hg h1 hf
    have hu : ∀ l k, new = [(.lis l, k)] → ∀ l, (s.node.ep.liss l).alive = false := by
      intro l k hk
      cases hg <;> simp at hk
      exact ih.free.1.mp ‹_›
    have hv : ∀ c k, new = [(.conn c, ⟨true, .connected k⟩)] → ∀ d, (s.node.ep.conns d).alive = true →
        (s.node.ep.conns d).addr ≠ k := by
      intro c k hk
      cases hg <;> simp only [List.cons.injEq, Prod.mk.injEq, and_true, reduceCtorEq, false_and,
        Sock.mk.injEq, true_and, Role.connected.injEq] at hk
      · rw [← hk.2]; exact (ih.free.2 _).mp ‹_›
      · rw [← hk.2]; exact (ih.free.2 _).mp ‹_›
    refine ⟨fun y hy => ?_, fun w hw => ?_, ?_, fun l l' hl hl' => ?_, fun c d hc hd ha => ?_⟩
    · rw [h2] at hy
      obtain ⟨h3, h4⟩ := List.mem_filter.mp hy
      refine ⟨h4, ?_⟩
      rcases hn _ h4 with ⟨h5, h6, h7⟩ | ⟨h5, h6⟩
      · rcases List.mem_append.mp h3 with h3 | h3
        · exact absurd (List.mem_map_of_mem h3) h7
        · rw [h6]; exact (ih.all y h3).2
      · rw [h5] at h3
        rcases List.mem_append.mp h3 with h3 | h3
        · rw [List.mem_singleton.mp h3]
        · rw [(ih.all y h3).1] at h6; cases h6
    · rw [h2]
      refine List.mem_filter.mpr ⟨?_, hw⟩
      rcases hn _ hw with ⟨h5, h6, -⟩ | ⟨h5, h6⟩
      · rw [h6]; exact List.mem_append_right _ (ih.every w h5)
      · rw [h5]; exact List.mem_append_left _ (List.mem_singleton.mpr rfl)
    · rw [h2]
      refine ((List.filter_sublist).map Prod.fst).nodup ?_
      rw [List.map_append]
      have h3 : ∀ w ∈ new.map Prod.fst, running s.node.ep w = false := by
        intro w hw
        cases hg <;> simp only [List.map_cons, List.map_nil, List.mem_singleton, List.not_mem_nil] at hw
        · simp [hw, running, hf.conns _ (Nat.le_refl _)]
        · simp [hw, running, hf.liss _ (Nat.le_refl _)]
        · simp [hw, running, hf.conns _ (Nat.le_refl _)]
      refine List.nodup_append.mpr ⟨by cases hg <;> simp, ih.nodup, ?_⟩
      rintro w hw w' hw' rfl
      obtain ⟨y, h4, rfl⟩ := List.mem_map.mp hw'
      have h5 := h3 _ hw
      rw [(ih.all y h4).1] at h5
      cases h5
    · rcases hn (.lis l) hl with ⟨h5, -, -⟩ | ⟨h5, h6⟩ <;> rcases hn (.lis l') hl' with ⟨h7, -, -⟩ | ⟨h7, h8⟩
      · exact ih.lis l l' h5 h7
      · rw [show running s.node.ep (.lis l) = _ from hu _ _ h7 l] at h5; cases h5
      · rw [show running s.node.ep (.lis l') = _ from hu _ _ h5 l'] at h7; cases h7
      · rw [h5] at h7
        simp only [List.cons.injEq, Prod.mk.injEq, Owner.lis.injEq] at h7
        exact h7.1.1
    · rcases hn (.conn c) hc with ⟨h5, h9, -⟩ | ⟨h5, h6⟩ <;>
        rcases hn (.conn d) hd with ⟨h7, h10, -⟩ | ⟨h7, h8⟩
      · simp only [want, Sock.mk.injEq, Role.connected.injEq, true_and] at h9 h10
        exact ih.conns c d h5 h7 (by rw [← h9, ← h10, ha])
      · simp only [want, Sock.mk.injEq, Role.connected.injEq, true_and] at h9
        exact absurd (by rw [← h9, ha]) (hv d _ h7 c h5)
      · simp only [want, Sock.mk.injEq, Role.connected.injEq, true_and] at h10
        exact absurd (by rw [← h10, ha]) (hv c _ h5 d h7)
      · rw [h5] at h7
        simp only [List.cons.injEq, Prod.mk.injEq, Owner.conn.injEq] at h7
        exact h7.1.1

end Rsomeip.Rt.TcpOs
