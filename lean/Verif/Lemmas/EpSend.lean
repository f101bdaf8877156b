import Verif.Lemmas.EpAsk

/-! # Who is asked to send what -/

namespace Rsomeip.Rt.Ep

open Someip (InterfaceId)
open Spec Spec.Ep

/-- The call a stub is in. -/
def StubPc.call : StubPc → Option (Addr × Msg)
  | .idle => none
  | .check a m => some (a, m)
  | .asking a m => some (a, m)
  | .asked a m _ => some (a, m)
  | .share a m _ => some (a, m)
  | .enter a m => some (a, m)
  | .sending a m _ => some (a, m)

/-- The connections to an address are connections to that address. -/
structure Peers (s : State) : Prop where
  peers : ∀ a c, s.peers.get a = some c → c < s.connCount ∧ (s.conns c).addr = a
  share : ∀ k a m c, (s.stubs k).pc = .share a m c → c < s.connCount ∧ (s.conns c).addr = a
  sending : ∀ k a m c, (s.stubs k).pc = .sending a m c → c < s.connCount ∧ (s.conns c).addr = a
  lis : ∀ l c, (s.liss l).pc = .share c → c < s.connCount
  task : ∀ id a c, s.pc = .proxyShare id a c → c < s.connCount ∧ (s.conns c).addr = a
  take : ∀ id a c i, s.pc = .proxyTake id a c i → c < s.connCount ∧ (s.conns c).addr = a
  proxies : ∀ p, p < s.proxyCount → (s.proxies p).conn < s.connCount ∧
    (s.conns (s.proxies p).conn).addr = (s.proxies p).remote
  queued : ∀ k a t, .connect k a t ∈ s.cmds → t < s.asks ∧
    ∀ b m, (s.stubs k).pc = .asked b m t → b = a
  current : ∀ k a t, s.pc = .connect k a t → t < s.asks ∧
    ∀ b m, (s.stubs k).pc = .asked b m t → b = a

theorem Peers.init : Peers init := by
  constructor <;> simp [Ep.init, Map.empty, Map.get, Map.find]

section
variable {dg : Bool} {s s' : State} {a : Action} {o : Obs} {tr : Trace}

theorem Move.conn_keep (m : Move dg s a o s') {c : Nat} (hc : c < s.connCount) :
    c < s'.connCount ∧ (s'.conns c).addr = (s.conns c).addr := by
  cases m <;> first | exact ⟨hc, rfl⟩ | grind [upd, Conn.ended]

theorem Peers.step_peers (h : Peers s) (m : Move dg s a o s') (b : Addr) (c : Nat)
    (hb : s'.peers.get b = some c) : c < s'.connCount ∧ (s'.conns c).addr = b := by
  have h1 := h.peers b c
  have h2 := h.share
  have h3 := h.lis
  have h4 := @Move.conn_keep dg s s' a o m c
  clear h
  cases m <;> first
    | exact ⟨(h4 (h1 hb).1).1, (h4 (h1 hb).1).2.trans (h1 hb).2⟩
    | grind [upd, Map.get_insert, Map.get_remove]

theorem Peers.step_share (h : Peers s) (m : Move dg s a o s') (k : Nat) (b : Addr) (x : Msg)
    (c : Nat) (hb : (s'.stubs k).pc = .share b x c) : c < s'.connCount ∧ (s'.conns c).addr = b := by
  have h2 := h.share k b x c
  have h3 := h.current
  have h4 := @Move.conn_keep dg s s' a o m c
  have h5 := answer_cases s
  have h6 := refuse_cases s
  clear h
  cases m <;> first
    | exact ⟨(h4 (h2 hb).1).1, (h4 (h2 hb).1).2.trans (h2 hb).2⟩
    | grind [upd, stubAt_apply, newConn]

theorem Peers.step_sending (h : Peers s) (m : Move dg s a o s') (k : Nat) (b : Addr) (x : Msg)
    (c : Nat) (hb : (s'.stubs k).pc = .sending b x c) :
    c < s'.connCount ∧ (s'.conns c).addr = b := by
  have h2 := h.sending k b x c
  have h3 := h.peers
  have h4 := @Move.conn_keep dg s s' a o m c
  have h5 := answer_cases s
  have h6 := refuse_cases s
  clear h
  cases m <;> first
    | exact ⟨(h4 (h2 hb).1).1, (h4 (h2 hb).1).2.trans (h2 hb).2⟩
    | grind [upd, stubAt_apply, newConn]

theorem Peers.step_lis (h : Peers s) (m : Move dg s a o s') (l c : Nat)
    (hb : (s'.liss l).pc = .share c) : c < s'.connCount := by
  have h2 := h.lis l c
  have h4 := @Move.conn_keep dg s s' a o m c
  clear h
  cases m <;> first | exact (h4 (h2 hb)).1 | grind [upd, newLis, deadLis]

theorem Peers.step_task (h : Peers s) (m : Move dg s a o s') (id : InterfaceId) (b : Addr)
    (c : Nat) (hb : s'.pc = .proxyShare id b c) : c < s'.connCount ∧ (s'.conns c).addr = b := by
  have h2 := h.task id b c
  have h3 := h.peers
  have h4 := @Move.conn_keep dg s s' a o m c
  clear h
  cases m <;> first
    | exact ⟨(h4 (h2 hb).1).1, (h4 (h2 hb).1).2.trans (h2 hb).2⟩
    | grind [upd, newConn]

theorem Peers.step_take (h : Peers s) (m : Move dg s a o s') (id : InterfaceId) (b : Addr)
    (c i : Nat) (hb : s'.pc = .proxyTake id b c i) :
    c < s'.connCount ∧ (s'.conns c).addr = b := by
  have h2 := h.take id b c i
  have h3 := h.task
  have h4 := @Move.conn_keep dg s s' a o m c
  clear h
  cases m <;> first
    | exact ⟨(h4 (h2 hb).1).1, (h4 (h2 hb).1).2.trans (h2 hb).2⟩
    | grind [upd]

theorem Peers.step_proxies (h : Peers s) (m : Move dg s a o s') (p : Nat) (hp : p < s'.proxyCount) :
    (s'.proxies p).conn < s'.connCount ∧
      (s'.conns (s'.proxies p).conn).addr = (s'.proxies p).remote := by
  have h2 := h.proxies p
  have h3 := h.take
  have h4 := fun c => @Move.conn_keep dg s s' a o m c
  clear h
  cases m <;> first
    | exact ⟨(h4 _ (h2 hp).1).1, (h4 _ (h2 hp).1).2.trans (h2 hp).2⟩
    | grind [upd]

theorem Peers.step_queued (h : Peers s) (m : Move dg s a o s') (k : Nat) (b : Addr) (t : Nat)
    (hb : .connect k b t ∈ s'.cmds) : t < s'.asks ∧
      ∀ c x, (s'.stubs k).pc = .asked c x t → c = b := by
  have h2 := h.queued k b t
  have h5 := answer_cases s
  have h6 := refuse_cases s
  clear h
  cases m <;> first | exact h2 hb | grind [upd, stubAt_apply]

theorem Peers.step_current (h : Peers s) (m : Move dg s a o s') (k : Nat) (b : Addr) (t : Nat)
    (hb : s'.pc = .connect k b t) : t < s'.asks ∧
      ∀ c x, (s'.stubs k).pc = .asked c x t → c = b := by
  have h2 := h.current k b t
  have h3 := h.queued k b t
  have h5 := answer_cases s
  have h6 := refuse_cases s
  clear h
  cases m <;> first | exact h2 hb | grind [upd, stubAt_apply]

theorem Peers.step (h : Peers s) (m : Move dg s a o s') : Peers s' :=
  ⟨h.step_peers m, h.step_share m, h.step_sending m, h.step_lis m, h.step_task m, h.step_take m,
    h.step_proxies m, h.step_queued m, h.step_current m⟩

end

theorem peers {dg : Bool} {s : State} {tr : Trace} (e : Exec (step dg) init tr s) : Peers s := by
  induction e with
  | nil => exact .init
  | snoc _ hs ih => exact ih.step (move_of_step hs)

end Rsomeip.Rt.Ep
