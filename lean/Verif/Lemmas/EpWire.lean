import Verif.Lemmas.EpSend
import Verif.Props.Rt.Packets

/-! # From calls of `send` to the wire -/

namespace Rsomeip.Rt.Ep

open Someip (InterfaceId)
open Spec Spec.Ep

theorem lastCall_snoc (k : Nat) (tr : Trace) (a : Action) (o : Obs) :
    lastCall k (tr ++ [(a, o)]) = match a with
      | .stubSend j b m => if j = k then some (b, m) else lastCall k tr
      | _ => lastCall k tr := by
  simp only [lastCall, List.foldl_append, List.foldl_cons, List.foldl_nil]
  cases a <;> rfl

theorem accepted_snoc (c : Nat) (tr : Trace) (a : Action) (o : Obs) :
    accepted c (tr ++ [(a, o)]) = accepted c tr ++ (match o with
      | .accepted d m => if d = c then [m] else []
      | _ => []) := by
  rw [accepted, List.filterMap_append]
  congr 1
  cases o <;> first | rfl | skip
  rename_i d m
  by_cases h : d = c <;> simp [h]

theorem onWire_snoc (c : Nat) (tr : Trace) (a : Action) (o : Obs) :
    onWire c (tr ++ [(a, o)]) = onWire c tr ++ (match a, o with
      | .sent d _, .wire b _ => if d = c then [b] else []
      | _, _ => []) := by
  rw [onWire, List.filterMap_append]
  congr 1
  cases a <;> cases o <;> first | rfl | skip
  rename_i d _ b _
  by_cases h : d = c <;> simp [h]

theorem outgoing_eq (m : Msg) : outgoing m = some (wireForm m) := by
  rw [wireForm]
  split
  · exact C64_whole_partial m ‹_›
  · exact (C64_partial_buffer_sent m (by omega)).2

/-- A stub in a call is in its last call. -/
theorem in_call {dg : Bool} {s : State} {tr : Trace} (e : Exec (step dg) init tr s) (k : Nat) :
    ∀ x, (s.stubs k).pc.call = some x → lastCall k tr = some x := by
  induction e with
  | nil => simp [init, StubPc.call]
  | @snoc tr s s' a o e hs ih =>
    intro x hx
    rw [lastCall_snoc]
    have h5 := answer_cases s
    have h6 := refuse_cases s
    have m := move_of_step hs
    clear hs
    cases m <;> first | exact ih x hx | grind [upd, stubAt_apply, StubPc.call]

/-- The messages in the queue of a connection. -/
def messages (cmds : List ConnCmd) : List Msg :=
  cmds.filterMap fun x => match x with
    | .message m => some m
    | .take .. => none

theorem messages_append (x y : List ConnCmd) : messages (x ++ y) = messages x ++ messages y :=
  List.filterMap_append ..

/-- What connection `c` was asked to send and has not handed to the socket yet. -/
def Conn.todo (c : Conn) : List Bytes := c.out.toList ++ (messages c.cmds).map wireForm

structure Wire (tr : Trace) (s : State) : Prop where
  alive : ∀ c, (s.conns c).alive = true →
    onWire c tr ++ (s.conns c).todo = (accepted c tr).map wireForm
  «prefix» : ∀ c, onWire c tr <+: (accepted c tr).map wireForm
  new : ∀ c, s.connCount ≤ c → onWire c tr = [] ∧ accepted c tr = []

section
variable {dg : Bool} {s s' : State} {a : Action} {o : Obs} {tr : Trace}

theorem Move.wire (m : Move dg s a o s') (c : Nat)
    (h : onWire c tr ++ (s.conns c).todo = (accepted c tr).map wireForm)
    (ha : (s'.conns c).alive = true) (hc : c < s.connCount) :
    onWire c (tr ++ [(a, o)]) ++ (s'.conns c).todo = (accepted c (tr ++ [(a, o)])).map wireForm := by
  rw [onWire_snoc, accepted_snoc, List.map_append, ← h]
  have h1 := outgoing_eq
  clear h
  cases m
  case proxyRecv p x b q _ _ => by_cases hb : (s.proxies p).remote = b <;> simp [hb]
  all_goals first
    | (simp only [List.append_nil, List.map_nil]; done)
    | grind [upd, Conn.ended, Conn.todo, messages, newConn]

theorem Move.alive_new (m : Move dg s a o s') (c : Nat) (h : (s'.conns c).alive = true) :
    (s.conns c).alive = true ∨ c = s.connCount ∧ s'.conns c = newConn (s'.conns c).addr ∧
      o = .opened c (s'.conns c).addr := by
  cases m <;> first | exact .inl h | grind [upd, Conn.ended, newConn]

theorem Move.wire_new (hp : Peers s) (hg : Good s) (m : Move dg s a o s') (c : Nat)
    (hc : s.connCount ≤ c) : onWire c (tr ++ [(a, o)]) = onWire c tr ∧
      accepted c (tr ++ [(a, o)]) = accepted c tr := by
  rw [onWire_snoc, accepted_snoc]
  have h1 := hp.sending
  have h2 := hp.proxies
  have h3 := @proxy_lt s hg.fresh
  have h4 := hg.fresh.conns c hc
  clear hp hg
  cases m
  case proxyRecv p x b q _ _ => by_cases hb : (s.proxies p).remote = b <;> simp [hb]
  all_goals first
    | (simp only [List.append_nil]; exact ⟨rfl, rfl⟩)
    | grind

theorem Move.wire_prefix (hg : Good s) (m : Move dg s a o s') (c : Nat)
    (h : (s.conns c).alive = true → onWire c tr ++ (s.conns c).todo = (accepted c tr).map wireForm)
    (h' : onWire c tr <+: (accepted c tr).map wireForm) :
    onWire c (tr ++ [(a, o)]) <+: (accepted c (tr ++ [(a, o)])).map wireForm := by
  rw [onWire_snoc, accepted_snoc, List.map_append]
  have h4 := hg.ended.conns c
  have key : ∀ b, (s.conns c).out = some b →
      onWire c tr ++ [b] <+: (accepted c tr).map wireForm := by
    intro b hb
    have ha : (s.conns c).alive = true := by
      cases ha : (s.conns c).alive with
      | true => rfl
      | false => have := (h4 ha).2.1; rw [hb] at this; cases this
    refine ⟨(messages (s.conns c).cmds).map wireForm, ?_⟩
    rw [← h ha, Conn.todo, hb]
    simp
  clear h h4 hg
  cases m
  case proxyRecv p x b q _ _ => by_cases hb : (s.proxies p).remote = b <;> simpa [hb] using h'
  case sentOk d b hb =>
    by_cases hd : d = c
    · subst hd; simpa using key b hb
    · simpa [hd] using h'
  case sentFail d b hb =>
    by_cases hd : d = c
    · subst hd; simpa using key b hb
    · simpa [hd] using h'
  all_goals
    simp only [List.append_nil, List.map_nil]
    first | exact h' | exact h'.trans (List.prefix_append ..)

end

/-- Who asked for a connection, and what is being done about it. -/
theorem unregistered {dg : Bool} {s : State} {tr : Trace} (e : Exec (step dg) init tr s) :
    (∀ k a m, (s.stubs k).pc = .asking a m →
      (∃ m, (.stubSend k a m, .none) ∈ tr) ∧ Unregistered dg tr a) ∧
    (∀ k a t, .connect k a t ∈ s.cmds →
      (∃ m, (.stubSend k a m, .none) ∈ tr) ∧ Unregistered dg tr a) ∧
    (∀ k a t, s.pc = .connect k a t →
      (∃ m, (.stubSend k a m, .none) ∈ tr) ∧ Unregistered dg tr a) ∧
    (∀ id a, s.pc = .proxyConnect id a → (.proxy id a, .none) ∈ tr ∧ Unregistered dg tr a) ∧
    (∀ id a, s.pc = .proxyGet id a → (.proxy id a, .none) ∈ tr) ∧
    (∀ id a, s.pc = .proxyCheck id a → (.proxy id a, .none) ∈ tr) ∧
    (∀ id a, .proxy id a ∈ s.cmds → (.proxy id a, .none) ∈ tr) ∧
    ∀ k a m, (s.stubs k).pc = .check a m → (.stubSend k a m, .none) ∈ tr := by
  induction e with
  | nil => simp [init]
  | @snoc tr s s' x o e hs ih =>
    obtain ⟨h1, h2, h3, h4, h4b, h4c, h5, h6⟩ := ih
    have hm : ∀ y, y ∈ tr → y ∈ tr ++ [(x, o)] := fun y h => List.mem_append_left _ h
    have hl : (x, o) ∈ tr ++ [(x, o)] := List.mem_append_right _ (List.mem_singleton_self _)
    have hu : ∀ a, Unregistered dg tr a → Unregistered dg (tr ++ [(x, o)]) a := by
      rintro a ⟨t, u, s, rfl, h⟩
      exact ⟨t, u ++ [(x, o)], s, by simp, h⟩
    have hn : ∀ a, (∀ c, s.peers.get a = some c → s.connStrong c = false) →
        Unregistered dg (tr ++ [(x, o)]) a := by
      intro a h
      exact ⟨tr, [(x, o)], s, rfl, e, fun c hc => by have := h c hc.1; rw [hc.2] at this; cases this⟩
    have h9 := answer_cases s
    have h10 := refuse_cases s
    have m := move_of_step hs
    clear hs e
    generalize tr ++ [(x, o)] = tr' at *
    refine ⟨?_, ?_, ?_, ?_, ?_, ?_, ?_, ?_⟩
    · clear h2 h3 h4 h4b h4c h5
      cases m <;> first
        | exact fun k a m h => ⟨(h1 k a m h).1.imp fun _ => hm _, hu a (h1 k a m h).2⟩
        | grind [upd, stubAt_apply]
    · clear h3 h4 h4b h4c h5 h6 hn
      cases m <;> first
        | exact fun k a m h => ⟨(h2 k a m h).1.imp fun _ => hm _, hu a (h2 k a m h).2⟩
        | grind [upd, stubAt_apply]
    · clear h1 h4 h4b h4c h5 h6 hn
      cases m <;> first
        | exact fun k a m h => ⟨(h3 k a m h).1.imp fun _ => hm _, hu a (h3 k a m h).2⟩
        | grind [upd, stubAt_apply]
    · clear h1 h2 h3 h4c h5 h6
      cases m <;> first
        | exact fun id a h => ⟨hm _ (h4 id a h).1, hu a (h4 id a h).2⟩
        | grind [upd, stubAt_apply]
    · clear h1 h2 h3 h4 h5 h6
      cases m <;> first
        | exact fun id a h => hm _ (h4b id a h)
        | grind [upd, stubAt_apply]
    · clear h1 h2 h3 h4 h4b h6
      cases m <;> first
        | exact fun id a h => hm _ (h4c id a h)
        | grind [upd, stubAt_apply]
    · clear h1 h2 h3 h4 h4b h4c h6
      cases m <;> first
        | exact fun id a h => hm _ (h5 id a h)
        | grind [upd, stubAt_apply]
    · clear h1 h2 h3 h4 h4b h4c h5
      cases m <;> first
        | exact fun k a m h => hm _ (h6 k a m h)
        | grind [upd, stubAt_apply]

theorem wire {dg : Bool} {s : State} {tr : Trace} (e : Exec (step dg) init tr s) : Wire tr s := by
  induction e with
  | nil => exact ⟨by simp [init], fun c => List.prefix_refl _, fun c _ => ⟨rfl, rfl⟩⟩
  | @snoc tr s s' a o e hs ih =>
    have m := move_of_step hs
    have hg := (good_hist e).1
    have hp := peers e
    refine ⟨fun c ha => ?_, fun c => m.wire_prefix hg c (ih.alive c) (ih.prefix c), fun c hc => ?_⟩
    · rcases m.alive_new c ha with h1 | ⟨h1, h2, -⟩
      · exact m.wire c (ih.alive c h1) ha (alive_lt hg.fresh h1)
      · have h3 := m.wire_new (tr := tr) hp hg c (Nat.le_of_eq h1.symm)
        have h4 := ih.new c (Nat.le_of_eq h1.symm)
        rw [h3.1, h3.2, h4.1, h4.2, h2]
        rfl
    · have h0 : s.connCount ≤ c := Nat.le_trans (by
        clear hs ih
        cases m <;> first | exact Nat.le_refl _ | exact Nat.le_succ _) hc
      have h3 := m.wire_new (tr := tr) hp hg c h0
      have h4 := ih.new c h0
      rw [h3.1, h3.2]
      exact h4

end Rsomeip.Rt.Ep
