import Verif.Props.Rt.TcpOpen
import Verif.Props.Rt.TcpNode
import Verif.Props.Rt.Done

/-! # C98: nothing is left undone, on a TCP socket -/

namespace Rsomeip

open Rt Rt.TcpNode Spec Spec.TcpNode Someip
open Spec.Ep (Shown accepted wireForm onWire heard settled contents requests answered inCall)
open Spec.Node (reads)

/-- A step with which the program gets on, without a call, and without the operating system reporting
an error: a step of a task of the endpoint or of a call in progress, a read that returns, a write that
takes something. -/
def Spec.TcpNode.GetsOn (a : TcpNode.Action) : Prop :=
  (∃ y, a = .app y ∧ ((∃ ok, y = .ep ok) ∨ (∃ l, y = .lisShare l) ∨ (∃ l, y = .lisCmd l) ∨
      (∃ c, y = .route c) ∨ (∃ c, y = .connCmd c) ∨ ∃ k, y = .stubStep k)) ∨
    (∃ c n, a = .read c (.read n)) ∨ ∃ c n, 0 < n ∧ a = .write c (.wrote n)

/-- The program cannot get on. -/
def Spec.TcpNode.Resting (s : State) : Prop := ∀ a, GetsOn a → TcpNode.step s a = none

/-- The user reads from all stubs and proxies: no queue is full. -/
def Spec.TcpNode.Room (s : State) : Prop :=
  (∀ k, (s.ep.stubs k).alive = true → (s.ep.ifaces (s.ep.stubs k).iface).queue.length < 16) ∧
    ∀ p, (s.ep.proxies p).alive = true → (s.ep.ifaces (s.ep.proxies p).iface).queue.length < 16

section
variable {tr : Trace} {s : State}

theorem gets_internal {a : TcpNode.Action} (h : GetsOn a) : a.internal = true := by
  rcases h with ⟨y, rfl, hy⟩ | ⟨c, n, rfl⟩ | ⟨c, n, hn, rfl⟩
  · rcases hy with ⟨_, rfl⟩ | ⟨_, rfl⟩ | ⟨_, rfl⟩ | ⟨_, rfl⟩ | ⟨_, rfl⟩ | ⟨_, rfl⟩ <;> rfl
  · rfl
  · have : n ≠ 0 := by omega
    simp [TcpNode.Action.internal, this]

/-- The endpoint of a program that cannot get on. -/
theorem tcp_quiet (e : Exec TcpNode.step TcpNode.init tr s) (hr : Resting s) (hm : Room s) :
    Ep.Quiet false s.ep := by
  have key : ∀ y, GetsOn (.app y) → (∀ c r, y ≠ .packet c r) → (∀ c ok, y ≠ .sent c ok) →
      Ep.step false s.ep y = none := by
    intro y hy h1 h2
    cases hs : Ep.step false s.ep y with
    | none => rfl
    | some r =>
      exfalso
      have := hr (.app y) hy
      cases y <;> first | exact h1 _ _ rfl | exact h2 _ _ rfl | simp [TcpNode.step, does, hs] at this
  refine ⟨?_, ?_, ?_, ?_, ?_, ?_, ?_, hm.1, hm.2⟩
  · exact key _ (.inl ⟨_, rfl, by simp⟩) (by simp) (by simp)
  · exact fun l => key _ (.inl ⟨_, rfl, by simp⟩) (by simp) (by simp)
  · exact fun l => key _ (.inl ⟨_, rfl, by simp⟩) (by simp) (by simp)
  · exact fun l => key _ (.inl ⟨_, rfl, by simp⟩) (by simp) (by simp)
  · exact fun l => key _ (.inl ⟨_, rfl, by simp⟩) (by simp) (by simp)
  · intro c
    cases ho : (s.ep.conns c).out with
    | none => simp [Ep.step, Ep.sent, ho]
    | some b =>
      obtain ⟨s', o, h⟩ := C87_goes_on e ho (.wrote 1)
      rw [hr _ (.inr (.inr ⟨c, 1, Nat.one_pos, rfl⟩))] at h
      cases h
  · exact fun k => key _ (.inl ⟨_, rfl, by simp⟩) (by simp) (by simp)

/-- **C98.** As long as no remote has closed its side of a connection (C88 says what happens then), an
endpoint on a TCP socket comes to rest by itself, without calls and without errors: from every state a
state is reached in which it cannot get on, whatever is done first. -/
theorem C98_comes_to_rest (e : Exec TcpNode.step TcpNode.init tr s) (h : ∀ c o, (.shut c, o) ∉ tr) :
    ∃ t s', Exec TcpNode.step s t s' ∧ (∀ x ∈ t, GetsOn x.1) ∧ Resting s' := by
  have wf : WellFounded (Prod.Lex (· < · : Nat → Nat → Prop) (· < · : Nat → Nat → Prop)) :=
    (Prod.lex Nat.lt_wfRel Nat.lt_wfRel).wf
  have he := TcpNode.eof_none e h
  clear h
  generalize hp : (s.work, s.left) = p
  induction p using wf.induction generalizing tr s with
  | _ p ih =>
    by_cases hr : Resting s
    · exact ⟨[], s, .nil, fun x hx => (nomatch hx), hr⟩
    · simp only [Resting, not_forall] at hr
      obtain ⟨x, hx, hs⟩ := hr
      obtain ⟨⟨s1, o⟩, hs⟩ := Option.ne_none_iff_exists'.mp hs
      have hw := TcpNode.work_step e he hs (gets_internal hx)
      have he1 : ∀ c, s1.eof c = false := by rw [TcpNode.eof_stays hs (gets_internal hx)]; exact he
      have hl : Prod.Lex (· < ·) (· < ·) (s1.work, s1.left) p := by
        rw [← hp]
        rcases hw with h | ⟨h1, h2⟩
        · exact .left _ _ h
        · rw [h1]; exact .right _ h2
      obtain ⟨t, s', e', h2, h3⟩ := ih _ hl (e.snoc hs) he1 rfl
      refine ⟨(x, o) :: t, s', .cons hs e', ?_, h3⟩
      intro y hy
      rcases List.mem_cons.mp hy with rfl | hy
      · exact hx
      · exact h2 y hy

/-- **C98.** When the program cannot get on and no queue is full, all calls of `serve` and `proxy` have
returned. -/
theorem C98_requests (e : Exec TcpNode.step TcpNode.init tr s) (hr : Resting s) (hm : Room s) :
    answered (app tr) = requests (app tr) := by
  obtain ⟨h1, h2⟩ := (tcp_quiet e hr hm).cmds (part e)
  have := Ep.asked (part e)
  rwa [h1, h2, show Ep.waiting [] = [] from rfl, List.append_nil, List.append_nil] at this

/-- **C98.** When the program cannot get on and no queue is full, all calls of `Stub::send_to` have
returned. -/
theorem C98_calls (e : Exec TcpNode.step TcpNode.init tr s) (hr : Resting s) (hm : Room s) (k : Nat) :
    inCall k (app tr) = false :=
  (Ep.idle_iff (part e) k).mp ((tcp_quiet e hr hm).stubIdle (part e) k)

theorem broke_grow {c : Nat} (h : Broke c tr) (x : TcpNode.Action × TcpNode.Obs) :
    Broke c (tr ++ [x]) := by
  rcases h with ⟨y, h1, h2⟩ | ⟨y, h1, h2⟩
  · exact .inl ⟨y, List.mem_append_left _ h1, h2⟩
  · exact .inr ⟨y, List.mem_append_left _ h1, h2⟩

/-- Everything accepted by a connection that has ended was written, unless the operating system has
reported an error. -/
theorem dead_written (e : Exec TcpNode.step TcpNode.init tr s) (c : Nat)
    (h : (s.ep.conns c).alive = false) :
    written c tr = ((accepted c (app tr)).map wireForm).flatten ∨ Broke c tr := by
  induction e with
  | nil => exact .inl rfl
  | @snoc tr s s' a w e hs ih =>
    have hl : (a, w) ∈ tr ++ [(a, w)] := List.mem_append_right _ (List.mem_singleton_self _)
    have hg := (Ep.good_hist (part e)).1
    cases ha : (s.ep.conns c).alive with
    | false =>
      rcases ih ha with h1 | h1
      · refine .inl ?_
        have h2 := (hg.ended.conns c ha).2.1
        have h3 : written c (tr ++ [(a, w)]) = written c tr := by
          rw [written_snoc]
          cases move_of_step hs with
          | taken d _ b w hb | done d _ b w _ _ hb | failed d _ b _ w _ _ hb =>
            have : d ≠ c := by rintro rfl; rw [h2] at hb; cases hb
            simp [this]
          | _ => exact List.append_nil _
        have h4 : accepted c (app (tr ++ [(a, w)])) = accepted c (app tr) := by
          rw [app_snoc]
          cases hw : w.ep with
          | none => exact congrArg _ (List.append_nil _)
          | some x =>
            obtain ⟨y, o⟩ := x
            have m := tcp_step hs hw
            rw [Option.toList_some, Ep.accepted_snoc]
            generalize s'.ep = z at m
            clear hs hw h3
            cases m <;> first | exact List.append_nil _ | grind
        rw [h3, h4, h1]
      · exact .inr (broke_grow h1 _)
    | true =>
      have hw := (streams e).outs c ha
      have hx := (Ep.wire (part e)).alive c ha
      cases hm : move_of_step hs with
      | app x e' o h1 h2 he =>
        have m := Ep.move_of_step he
        clear hm hs ih
        rw [written_snoc, app_snoc]
        dsimp only at h ⊢
        have hk : (s.ep.conns c).out = none ∧ (s.ep.conns c).cmds = [] ∧ ∀ d m, o ≠ .accepted d m := by
          have h5 := Ep.outgoing_eq
          cases m <;> first
            | (exfalso; rw [ha] at h; cases h; done) | (exfalso; exact h1 _ _ rfl)
            | (exfalso; exact h2 _ _ rfl) | grind [upd, Ep.newConn]
        rw [hk.1, part_, List.append_nil] at hw
        rw [Ep.Conn.todo, hk.1, hk.2.1] at hx
        have hx : onWire c (app tr) = (accepted c (app tr)).map wireForm := by
          simpa [Ep.messages] using hx
        refine .inl ?_
        rw [List.append_nil, hw, hx, Option.toList_some, Ep.accepted_snoc]
        congr 2
        cases o <;> first | exact (List.append_nil _).symm | exact absurd rfl (hk.2.2 _ _)
      | broken d r e' o hr he =>
        by_cases hd : d = c
        · subst hd
          rcases hr with rfl | rfl
          · exact .inr (.inl ⟨_, hl, .inl rfl⟩)
          · exact .inr (.inl ⟨_, hl, .inr rfl⟩)
        · exfalso
          have m := Ep.move_of_step he
          dsimp only at h
          clear hm hs ih
          cases m <;> grind [upd]
      | failed d r b b' w e' o hb hw' he =>
        by_cases hd : d = c
        · subst hd
          rcases send_error hw' with rfl | rfl
          · exact .inr (.inr ⟨_, hl, .inl rfl⟩)
          · exact .inr (.inr ⟨_, hl, .inr rfl⟩)
        · exfalso
          have m := Ep.move_of_step he
          dsimp only at h
          clear hm hs ih
          cases m <;> grind [upd]
      | done d r b w e' o hb hw' he =>
        exfalso
        have m := Ep.move_of_step he
        dsimp only at h
        clear hm hs ih
        cases m <;> grind [upd]
      | read d n e' o hp he =>
        exfalso
        have m := Ep.move_of_step he
        dsimp only at h
        have h9 := receive_packet ((s.inb d).take (min n 1400))
        clear hm hs ih
        cases m <;> grind [upd]
      | _ => rw [ha] at h; cases h

/-- **C98.** When the program cannot get on and no queue is full, all messages accepted by `send` and
`send_to` have been written completely, unless the operating system has reported an error on their
connection. -/
theorem C98_written (e : Exec TcpNode.step TcpNode.init tr s) (hr : Resting s) (hm : Room s) (c : Nat) :
    written c tr = ((accepted c (app tr)).map wireForm).flatten ∨ Broke c tr := by
  have hq := tcp_quiet e hr hm
  cases ha : (s.ep.conns c).alive with
  | false => exact dead_written e c ha
  | true =>
    have hw := (streams e).outs c ha
    have hx := (Ep.wire (part e)).alive c ha
    rw [hq.out c, part_, List.append_nil] at hw
    rw [Ep.Conn.todo, hq.out c, (hq.connCmds ha).1] at hx
    have hx : onWire c (app tr) = (accepted c (app tr)).map wireForm := by
      simpa [Ep.messages] using hx
    exact .inl (by rw [hw, hx])

/-- **C98.** When the program cannot get on and no queue is full, a running connection has read
everything that has arrived, and every message of what was read has been put into the queue of its
interface or dropped, in order, each once. -/
theorem C98_received (e : Exec TcpNode.step TcpNode.init tr s) (hr : Resting s) (hm : Room s) {c : Nat}
    (ha : Spec.Ep.ConnOpen c (app tr)) :
    (reads c (app tr)).flatten = arrived c tr ∧
      settled c (app tr) = (reads c (app tr)).flatMap contents := by
  rw [← Ep.conn_open_iff (part e)] at ha
  have hg := (Ep.good_hist (part e)).1
  have hq := tcp_quiet e hr hm
  have hw := hq.waits hg.readers c
  have hi : s.inb c = [] := by
    apply Decidable.byContradiction
    intro hn
    have h := hr (.read c (.read 1)) (.inr (.inl ⟨_, _, rfl⟩))
    have hb := receive_packet ((s.inb c).take 1)
    rcases hb with ⟨ms, h1, -⟩ | ⟨⟨er, h1⟩, -⟩ <;>
      simp [TcpNode.step, TcpNode.read, ha, hw, hn, possible, Tcp.recv, Tcp.readSize, does, Ep.step,
        Ep.packet, h1] at h
  constructor
  · have := in_hist e c
    rwa [hi, List.append_nil] at this
  · have := (Ep.line (part e)).alive c ha
    rwa [hw, Ep.RecvPc.pending, List.append_nil, Node.heard_eq] at this

end

/-- All processes wait, all bytes are read, no remote has closed its side, and all queues have room. -/
def Spec.TcpNode.calm (s : State) : Bool :=
  (decide (s.ep.pc = .idle ∧ s.ep.cmds = [] ∧ s.ep.epStrong = true)) &&
  (List.range s.ep.connCount).all (fun c => decide ((s.ep.conns c).pc = .wait ∧
    (s.ep.conns c).out = none ∧ (s.ep.conns c).cmds = [] ∧ s.ep.connStrong c = true ∧
    s.inb c = [] ∧ s.eof c = false)) &&
  (List.range s.ep.lisCount).all (fun l => decide ((s.ep.liss l).pc = .wait ∧
    (s.ep.liss l).cmds = [] ∧ s.ep.lisStrong l = true)) &&
  (List.range s.ep.stubCount).all (fun k => decide ((s.ep.stubs k).pc = .idle ∧
    (s.ep.ifaces (s.ep.stubs k).iface).queue.length < 16)) &&
  (List.range s.ep.proxyCount).all (fun k => decide (
    (s.ep.ifaces (s.ep.proxies k).iface).queue.length < 16))

theorem tcp_calm {tr : Trace} {s : State} (e : Exec TcpNode.step TcpNode.init tr s)
    (h : Spec.TcpNode.calm s = true) : Resting s ∧ Room s := by
  simp only [Spec.TcpNode.calm, Bool.and_eq_true, List.all_eq_true, List.mem_range,
    decide_eq_true_eq] at h
  obtain ⟨⟨⟨⟨h1, h2⟩, h3⟩, h4⟩, h5⟩ := h
  have hg := (Ep.good_hist (part e)).1
  have hc : ∀ c, (s.ep.conns c).out = none ∧ (s.ep.conns c).pc = .wait ∧
      ((s.ep.conns c).alive = true → (s.ep.conns c).cmds = [] ∧ s.ep.connStrong c = true ∧
        s.inb c = [] ∧ s.eof c = false) := fun c => by
    rcases Nat.lt_or_ge c s.ep.connCount with hlt | hge
    · exact ⟨(h2 c hlt).2.1, (h2 c hlt).1, fun _ => (h2 c hlt).2.2⟩
    · rw [hg.fresh.conns c hge]; simp
  have hl : ∀ l, (s.ep.liss l).pc = .wait ∧ ((s.ep.liss l).alive = true →
      (s.ep.liss l).cmds = [] ∧ s.ep.lisStrong l = true) := fun l => by
    rcases Nat.lt_or_ge l s.ep.lisCount with hlt | hge
    · exact ⟨(h3 l hlt).1, fun _ => (h3 l hlt).2⟩
    · rw [hg.fresh.liss l hge]; simp
  have hk : ∀ k, (s.ep.stubs k).pc = .idle := fun k => by
    rcases Nat.lt_or_ge k s.ep.stubCount with hlt | hge
    · exact (h4 k hlt).1
    · rw [hg.fresh.stubs k hge]
  refine ⟨?_, fun k hk => (h4 k (Ep.stub_lt hg.fresh hk)).2,
    fun p hp => h5 p (Ep.proxy_lt hg.fresh hp)⟩
  rintro a (⟨y, rfl, ⟨ok, rfl⟩ | ⟨l, rfl⟩ | ⟨l, rfl⟩ | ⟨c, rfl⟩ | ⟨c, rfl⟩ | ⟨k, rfl⟩⟩ | ⟨c, n, rfl⟩ |
    ⟨c, n, hn, rfl⟩)
  · simp [TcpNode.step, does, Ep.step, Ep.ep, h1, Ep.epCmd]
  · simp [TcpNode.step, does, Ep.step, Ep.lisShare, hl l]
  · cases ha : (s.ep.liss l).alive <;> simp [TcpNode.step, does, Ep.step, Ep.lisCmd, ha, hl l]
  · simp [TcpNode.step, does, Ep.step, Ep.route, hc c]
  · cases ha : (s.ep.conns c).alive <;> simp [TcpNode.step, does, Ep.step, Ep.connCmd, ha, hc c]
  · simp [TcpNode.step, does, Ep.step, Ep.stubStep, hk k]
  · cases ha : (s.ep.conns c).alive
    · simp [TcpNode.step, TcpNode.read, ha]
    · have := (hc c).2.2 ha
      simp [TcpNode.step, TcpNode.read, possible, this]
  · simp [TcpNode.step, TcpNode.write, hc c]

/-- A stub and a proxy: the proxy sends two messages, a message for it arrives in pieces and is read
in one, a client connects and sends a request. -/
def Spec.TcpNode.busy : List TcpNode.Action :=
  sending ++ [.write 0 (.wrote 100), .arrive 0 ((frame Ep.msgB').take 3),
    .arrive 0 ((frame Ep.msgB').drop 3), .read 0 (.read 1400), .app (.route 0), .app (.route 0),
    .app (.route 0), .app (.proxyRecv 0), .app (.serve ⟨1, 1⟩), .app (.ep true), .app (.ep true),
    .app (.ep true), .app (.ep true), .app (.ep true), .app (.lisCmd 0), .app (.accept 0 8),
    .app (.lisShare 0), .arrive 1 (frame Ep.msgA ++ frame Ep.msgB), .read 1 (.read 1400),
    .app (.route 1), .app (.route 1), .app (.route 1), .app (.route 1), .app (.route 1),
    .app (.stubRecv 0), .app (.proxyRecv 0)]

/-- Afterwards the program cannot get on, and no queue is full. -/
example : ∃ tr s, Exec TcpNode.step TcpNode.init tr s ∧ (∀ c o, (.shut c, o) ∉ tr) ∧ Resting s ∧
    Room s ∧ Spec.Ep.ConnOpen 0 (app tr) ∧ Spec.Ep.ConnOpen 1 (app tr) ∧
    accepted 0 (app tr) = [Ep.msgB, Ep.msgB'] ∧ written 0 tr = frame Ep.msgB ++ frame Ep.msgB' ∧
    settled 0 (app tr) = [Ep.msgB'] ∧ settled 1 (app tr) = [Ep.msgA, Ep.msgB] := by
  obtain ⟨tr, s, e, h⟩ := exec_by (step := TcpNode.step) (s := TcpNode.init) Spec.TcpNode.busy
    (fun tr s => Spec.TcpNode.calm s && decide ((∀ x ∈ tr, (match x.1 with
        | .shut _ => false
        | _ => true : Bool) = true) ∧ (s.ep.conns 0).alive = true ∧ (s.ep.conns 1).alive = true ∧
      accepted 0 (app tr) = [Ep.msgB, Ep.msgB'] ∧ written 0 tr = frame Ep.msgB ++ frame Ep.msgB' ∧
      settled 0 (app tr) = [Ep.msgB'] ∧ settled 1 (app tr) = [Ep.msgA, Ep.msgB])) (by decide +kernel)
  simp only [Bool.and_eq_true, decide_eq_true_eq] at h
  obtain ⟨hr, hm⟩ := tcp_calm e h.1
  exact ⟨tr, s, e, fun c o hx => Bool.noConfusion (h.2.1 _ hx), hr, hm,
    (Ep.conn_open_iff (part e) 0).mp h.2.2.1, (Ep.conn_open_iff (part e) 1).mp h.2.2.2.1, h.2.2.2.2⟩

/-- An error on a connection with a message that is not completely written. -/
example : ∃ tr s, Exec TcpNode.step TcpNode.init tr s ∧ Resting s ∧ Room s ∧ Broke 0 tr ∧
    written 0 tr ≠ ((accepted 0 (app tr)).map wireForm).flatten := by
  obtain ⟨tr, s, e, h⟩ := exec_by (step := TcpNode.step) (s := TcpNode.init)
    (sending ++ [.write 0 .failed])
    (fun tr s => Spec.TcpNode.calm s && decide ((∃ x ∈ tr, x.1 = .write 0 .failed) ∧
      accepted 0 (app tr) = [Ep.msgB, Ep.msgB'] ∧ written 0 tr = frame Ep.msgB ++ (frame Ep.msgB').take 7))
    (by decide +kernel)
  simp only [Bool.and_eq_true, decide_eq_true_eq] at h
  obtain ⟨hr, hm⟩ := tcp_calm e h.1
  obtain ⟨-, ⟨x, h1, h2⟩, h3, h4⟩ := h
  refine ⟨tr, s, e, hr, hm, .inr ⟨x, h1, .inr h2⟩, ?_⟩
  rw [h3, h4]
  decide

end Rsomeip
