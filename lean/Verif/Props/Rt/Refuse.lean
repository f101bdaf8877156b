import Verif.Props.Rt.Home
import Verif.Props.Rt.Weak
import Verif.Props.Rt.Packets

/-! # C117: which calls are refused -/

namespace Rsomeip

open Rt Rt.Ep Spec Spec.Ep
open Someip (InterfaceId)

/-- The endpoint has ended, or a weak handle to it could not be upgraded any more. -/
def Spec.Ep.EndpointGone (tr : Trace) : Prop := (∃ ok, (.ep ok, .ended) ∈ tr) ∨ (.upgrade, .upgraded false) ∈ tr

theorem over_unheld {dg : Bool} {tr : Trace} {s : State} (e : Exec (step dg) init tr s) (h : EndpointGone tr) :
    s.epStrong = false := by
  have key : ∀ x : Action × Obs, x ∈ tr → ((∃ ok, x = (.ep ok, .ended)) ∨ x = (.upgrade, .upgraded false)) →
      s.epStrong = false := by
    intro x hx hy
    obtain ⟨t, u, rfl⟩ := List.append_of_mem hx
    have := (C97_final e hy).2
    cases hh : s.epStrong with
    | false => rfl
    | true => simp [step, hh] at this
  rcases h with ⟨ok, h⟩ | h
  · exact key _ h (.inl ⟨ok, rfl⟩)
  · exact key _ h (.inr rfl)

/-- **C117**, the part that holds: once the endpoint is gone, a call of `send_to` to an address to which
there has never been a connection fails. Missing: all other calls work as before (`C117_false`). -/
theorem C117_refused_partial {dg : Bool} {tr : Trace} {s : State} {k : Nat} {a : Addr} {m : Msg} {o : Obs}
    (e : Exec (step dg) init (tr ++ [(.stubStep k, o)]) s) (h : EndpointGone tr) (hm : lastCall k tr = some (a, m))
    (hc : ∀ c, ¬ Shown tr (.opened c a)) : o = .sendFailed .notConnected := by
  obtain ⟨s₁, e₁, hs⟩ := e.last
  have hu := over_unheld e₁ h
  have hcall := call_of_step e₁ hs hm
  have hp := peers e₁
  have hh := (good_hist e₁).2
  have hf := (good_hist e₁).1.fresh
  have hn : s₁.peers.get a = none := by
    cases hg : s₁.peers.get a with
    | none => rfl
    | some c =>
      obtain ⟨h1, h2⟩ := hp.peers a c hg
      exact absurd (h2 ▸ hh.conns c h1) (hc c)
  have hi := epStrong_iff hf
  rw [hu] at hi
  have ho : ∀ c, c < s₁.connCount ∧ (s₁.conns c).addr = a → False :=
    fun c h => hc c (h.2 ▸ hh.conns c h.1)
  generalize hx : Action.stubStep k = x at hs
  cases move_of_step hs <;> cases hx
  case checkFail | enterDead | enterNone | sendDead => rfl
  case checkOk c hl hg hk hw | enterOk c hl hg hk hw =>
    rw [hw] at hcall; cases hcall; rw [hn] at hg; cases hg
  case checkAsk hk _ => rw [hu] at hk; cases hk
  case ask hw => exact absurd (hi.mpr (.inr ⟨k, _, _, .inl hw⟩)) nofun
  case stubShare c hl hw => exact absurd (hi.mpr (.inr ⟨k, _, _, .inr (.inr ⟨_, hw⟩)⟩)) nofun
  case sendOk ha hq hw => rw [hw] at hcall; cases hcall; exact (ho _ (hp.sending _ _ _ _ hw)).elim

/-- The endpoint has ended; a stub that is still there sends to an address without a connection. -/
example : ∃ tr s, Exec (step true) init (tr ++ [(.stubStep 0, .sendFailed .notConnected)]) s ∧
    EndpointGone tr ∧ lastCall 0 tr = some (8, msgA) ∧ ∀ c, ¬ Shown tr (.opened c 8) := by
  let t : Trace := served ++ [(.close, .none), (.ep true, .ended), (.stubSend 0 8 msgA, .none)]
  let w : Trace := t ++ [(.stubStep 0, .sendFailed .notConnected)]
  obtain ⟨tr, s, e, h⟩ := exec_by (step := step true) (s := init) (w.map Prod.fst)
    (fun tr _ => decide (tr = w)) (by decide +kernel)
  rw [of_decide_eq_true h] at e
  exact ⟨t, s, e, .inl ⟨true, by simp [t]⟩, by decide +kernel, by simp [Shown, t, served]⟩

/-- A stub and a proxy are made, the endpoint ends, and everything goes on: a request arrives from an
address that was not connected before, it is received and answered, and the proxy sends and receives. -/
def Spec.Ep.afterTrace : Trace :=
  [(.accept 0 9, .opened 1 9), (.lisShare 0, .none), (.packet 1 (.packet (frame msgA)), .none),
    (.route 1, .none), (.route 1, .routed 0 msgA 9), (.stubRecv 0, .message msgA 9),
    (.stubSend 0 9 msgB, .none), (.stubStep 0, .none), (.stubStep 0, .none),
    (.stubStep 0, .accepted 1 msgB), (.connCmd 1, .none), (.sent 1 true, .wire (frame msgB) true),
    (.proxySend 0 msgB, .accepted 0 msgB), (.connCmd 0, .none), (.sent 0 true, .wire (frame msgB) true),
    (.packet 0 (.packet (frame msgB)), .none), (.route 0, .none), (.route 0, .routed 1 msgB 7),
    (.proxyRecv 0, .reply msgB)]

/-- **C117 fails as stated.** After the endpoint has been dropped and has ended, stubs and proxies that
are still there accept new clients, receive and send. -/
theorem C117_false : ∃ tr t s, Exec (step true) init (tr ++ t) s ∧ held tr = false ∧ EndpointGone tr ∧
    (.stubRecv 0, .message msgA 9) ∈ t ∧ (.stubStep 0, .accepted 1 msgB) ∈ t ∧
    (.proxySend 0 msgB, .accepted 0 msgB) ∈ t ∧ (.proxyRecv 0, .reply msgB) ∈ t := by
  let t : Trace := served ++ [(.proxy ⟨2, 1⟩ 7, .none), (.ep true, .none), (.ep true, .none),
    (.ep true, .none), (.ep true, .opened 0 7), (.ep true, .none), (.ep true, .proxying 0 1 ⟨2, 1⟩ 7),
    (.connCmd 0, .none), (.close, .none), (.ep true, .ended)]
  obtain ⟨tr, s, e, h⟩ := exec_by (step := step true) (s := init) ((t ++ afterTrace).map Prod.fst)
    (fun tr _ => decide (tr = t ++ afterTrace)) (by decide +kernel)
  rw [of_decide_eq_true h] at e
  exact ⟨t, afterTrace, s, e, by decide +kernel, .inl ⟨true, by simp [t]⟩, by simp [afterTrace],
    by simp [afterTrace], by simp [afterTrace], by simp [afterTrace]⟩

/-- **C117 fails as stated.** Whether `Proxy::send` accepts a message does not depend on the message:
where it accepts one it accepts every other, also one that cannot be serialized. -/
theorem C117_any_message {dg : Bool} {tr : Trace} {s : State} {p c : Nat} {m : Msg}
    (e : Exec (step dg) init (tr ++ [(.proxySend p m, .accepted c m)]) s) (m' : Msg) :
    ∃ s', Exec (step dg) init (tr ++ [(.proxySend p m', .accepted c m')]) s' := by
  obtain ⟨s₁, e₁, hs⟩ := e.last
  generalize hx : Action.proxySend p m = x at hs
  generalize hy : Obs.accepted c m = y at hs
  cases move_of_step hs <;> cases hx <;> cases hy
  rename_i ha hc hq
  exact ⟨_, e₁.snoc (step_of_move (.proxySend p m' ha hc hq))⟩

/-- A proxy sends a message. -/
example : ∃ tr s, Exec (step true) init (tr ++ [(.proxySend 0 msgB, .accepted 0 msgB)]) s := by
  let w : Trace := [(.proxy ⟨2, 1⟩ 7, .none), (.ep true, .none), (.ep true, .none), (.ep true, .none),
    (.ep true, .opened 0 7), (.ep true, .none), (.ep true, .proxying 0 0 ⟨2, 1⟩ 7), (.connCmd 0, .none)]
  obtain ⟨tr, s, e, h⟩ := exec_by (step := step true) (s := init)
    (w.map Prod.fst ++ [.proxySend 0 msgB])
    (fun tr _ => decide (tr = w ++ [(.proxySend 0 msgB, .accepted 0 msgB)])) (by decide +kernel)
  rw [of_decide_eq_true h] at e
  exact ⟨w, s, e⟩

/-- **C117 fails as stated.** `Stub::send_to` accepts every message. One that is longer than its length
field can say is not serialized, and the first four bytes of it are sent; the call has returned `Ok`. -/
theorem C117_invalid (m : Msg) (h : 2 ^ 32 ≤ 8 + m.payload.length) :
    (∃ e b, (Someip.Message.ser Ser.bytes).serialize m ⟨[], none⟩ = (.err e, b)) ∧
    ∃ tr s, Exec (step true) init (tr ++ [(.stubStep 0, .accepted 0 m), (.connCmd 0, .none),
      (.sent 0 true, .wire (be 2 m.service.toNat ++ be 2 m.method.toNat) true)]) s := by
  obtain ⟨h1, h2⟩ := C64_partial_buffer_sent m h
  refine ⟨h1, ?_⟩
  obtain ⟨tr, s, e, h⟩ := exec_by (step := step true) (s := init)
    (served.map Prod.fst ++ [.accept 0 8, .lisShare 0])
    (fun _ s => decide ((s.stubs 0).alive = true ∧ (s.stubs 0).pc = .idle ∧ s.peers.get 8 = some 0 ∧
      s.stubCount = 1 ∧ (List.range s.lisCount).any (fun l => (s.liss l).holdsConn 0) = true ∧
      (s.conns 0).alive = true ∧ (s.conns 0).cmds = [] ∧ (s.conns 0).out = none)) (by decide +kernel)
  obtain ⟨k1, k2, k3, k4, k5, k6, k7, k8⟩ := of_decide_eq_true h
  let s1 : State := { s with stubs := s.stubAt 0 (.check 8 m) }
  let s2 : State := { s1 with stubs := s1.stubAt 0 (.enter 8 m) }
  let s3 : State := { s2 with stubs := s2.stubAt 0 (.sending 8 m 0) }
  have e1 : step true s (.stubSend 0 8 m) = some (s1, .none) := by simp [step, k1, k2, s1]
  have e2 : step true s1 (.stubStep 0) = some (s2, .none) := by
    refine step_of_move (.checkOk 0 8 m 0 ?_ ?_ k3 ?_)
    · simp [s1, stubAt_apply]
    · simp [State.peerLocked, s1, k4, stubAt_apply]
    · simp only [State.connStrong, Bool.or_eq_true, s1]; exact .inl (.inl (.inr k5))
  have e3 : step true s2 (.stubStep 0) = some (s3, .none) := by
    refine step_of_move (.enterOk 0 8 m 0 ?_ ?_ k3 ?_)
    · simp [s2, stubAt_apply]
    · simp [State.peerLocked, s2, s1, k4, stubAt_apply]
    · simp only [State.connStrong, Bool.or_eq_true, s1, s2]; exact .inl (.inl (.inr k5))
  have e4 : ∃ s4, step true s3 (.stubStep 0) = some (s4, .accepted 0 m) ∧ (s4.conns 0).alive = true ∧
      (s4.conns 0).cmds = [.message m] ∧ (s4.conns 0).out = none := by
    refine ⟨_, step_of_move (.sendOk 0 8 m 0 ?_ k6 ?_), ?_⟩
    · simp [s3, stubAt_apply]
    · simp [s3, s2, s1, k7, connCap]
    · simp only [s3, s2, s1, upd_same, k6, k7, k8, List.nil_append, and_self]
  obtain ⟨s4, e4, l1, l2, l3⟩ := e4
  have e5 : ∃ s5, step true s4 (.connCmd 0) = some (s5, .none) ∧
      (s5.conns 0).out = some (be 2 m.service.toNat ++ be 2 m.method.toNat) := by
    refine ⟨_, by simp only [step, connCmd, l1, l2, l3, h2, and_self, if_true]; rfl, ?_⟩
    simp only [upd_same]
  obtain ⟨s5, e5, l4⟩ := e5
  have e6 : ∃ s6, step true s5 (.sent 0 true) =
      some (s6, .wire (be 2 m.service.toNat ++ be 2 m.method.toNat) true) := by simp [step, sent, l4]
  obtain ⟨s6, e6⟩ := e6
  have := (((((e.snoc e1).snoc e2).snoc e3).snoc e4).snoc e5).snoc e6
  exact ⟨tr ++ [(.stubSend 0 8 m, .none), (.stubStep 0, .none), (.stubStep 0, .none)], s6,
    by simpa using this⟩

/-- There is such a message. -/
example : ∃ m : Msg, 2 ^ 32 ≤ 8 + m.payload.length := by
  obtain ⟨l, hl⟩ : ∃ l : Bytes, l.length = 2 ^ 32 := ⟨List.replicate (2 ^ 32) 0, List.length_replicate ..⟩
  exact ⟨{ msgA with payload := l }, by show 2 ^ 32 ≤ 8 + l.length; rw [hl]; omega⟩

end Rsomeip
