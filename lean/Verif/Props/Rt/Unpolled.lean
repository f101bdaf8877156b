import Verif.Props.Rt.Requests

/-! # C100: a call of `send_to` that is not polled -/

namespace Rsomeip

open Rt Rt.Ep Spec Spec.Ep Someip

/-- The call of `send_to` at stub `k` is left alone: not polled, not dropped. -/
def Spec.Ep.LeftAlone (k : Nat) (t : Trace) : Prop :=
  ∀ x ∈ t, x.1 ≠ .stubStep k ∧ x.1 ≠ .stubCancel k ∧ x.1 ≠ .dropStub k

/-- No address changes its lock. -/
def Spec.Ep.Settled (t : Trace) : Prop := ∀ e ∈ t, ∀ x y, e.1 ≠ .hashAddr x y

/-- A call of `send_to` at stub `k` to address `b` waits for room in the queue of a connection, and
address `a` is the same or has the same lock. -/
def Spec.Ep.Clogs (k : Nat) (a : Addr) (s : State) : Prop :=
  ∃ b m c, (s.stubs k).pc = .sending b m c ∧ s.peerBucket b = s.peerBucket a

theorem clogs_locked {s : State} {k : Nat} {a : Addr} (h : Clogs k a s) (hf : Fresh s) :
    s.peerLocked a = true := by
  obtain ⟨b, m, c, h1, h2⟩ := h
  exact (peerLocked_iff hf a).mpr ⟨k, b, m, c, h1, h2⟩

theorem sending_stays {dg : Bool} {s s' : State} {x : Action} {o : Obs} {k : Nat} {b : Addr} {m : Msg}
    {c : Nat} (hg : Good s) (hm : Move dg s x o s') (h : (s.stubs k).pc = .sending b m c)
    (h1 : x ≠ .stubStep k) (h2 : x ≠ .stubCancel k) (h3 : x ≠ .dropStub k) :
    (s'.stubs k).pc = .sending b m c := by
  have h4 : k ≠ s.stubCount := by
    rintro rfl
    rw [hg.fresh.stubs _ (Nat.le_refl _)] at h
    cases h
  have h5 := answer_cases s
  have h6 := refuse_cases s
  clear hg
  cases hm <;> first | exact h | grind [upd, stubAt_apply]

theorem peer_step {dg : Bool} {s s' : State} {x : Action} {o : Obs} (hm : Move dg s x o s')
    (hb : ∀ a b, x ≠ .hashAddr a b) : s'.peerBucket = s.peerBucket := by
  cases hm <;> first | rfl | exact absurd rfl (hb _ _)

/-- The call keeps the lock. -/
theorem clogs_step {dg : Bool} {s s' : State} {x : Action} {o : Obs} {k : Nat} {a : Addr}
    (hg : Good s) (hm : Move dg s x o s') (h : Clogs k a s)
    (h1 : x ≠ .stubStep k ∧ x ≠ .stubCancel k ∧ x ≠ .dropStub k) (hb : ∀ a b, x ≠ .hashAddr a b) :
    Clogs k a s' := by
  obtain ⟨b, m, c, h2, h3⟩ := h
  refine ⟨b, m, c, sending_stays hg hm h2 h1.1 h1.2.1 h1.2.2, ?_⟩
  rw [peer_step hm hb]
  exact h3

theorem clogs_exec {dg : Bool} {tr t : Trace} {s s' : State} {k : Nat} {a : Addr}
    (e : Exec (step dg) init tr s) (h : Clogs k a s) (e' : Exec (step dg) s t s')
    (hn : LeftAlone k t) (hb : Settled t) : Clogs k a s' := by
  induction e' with
  | nil => exact h
  | @snoc t s₁ s₂ x o e₁ hs ih =>
    have hx : (x, o) ∈ t ++ [(x, o)] := List.mem_append_right _ (List.mem_singleton.mpr rfl)
    exact clogs_step (good_hist (e.append e₁)).1 (move_of_step hs)
      (ih (fun x hx => hn x (List.mem_append_left _ hx))
        fun x hx => hb x (List.mem_append_left _ hx)) (hn _ hx) (hb _ hx)

/-- The endpoint is asked for a proxy to an address whose entry is locked. -/
theorem clogged_pc {dg : Bool} {s s' : State} {x : Action} {o : Obs} {id : InterfaceId} {a : Addr}
    (hp : s.pc = .proxyGet id a) (hl : s.peerLocked a = true) (hm : Move dg s x o s') :
    s'.pc = s.pc ∧ ∀ ok, x ≠ .ep ok := by
  cases hm <;> first | exact ⟨rfl, nofun⟩ | simp_all

/-- **C100** is false: a call of `send_to` that waits for room in a connection's queue and is not
polled stops the endpoint as soon as a proxy to the same address is asked for, or to an address that
shares its lock: no request of anybody is answered any more. -/
theorem C100_endpoint_hangs {dg : Bool} {tr t : Trace} {s s' : State} {id : InterfaceId} {k : Nat}
    {a : Addr} (e : Exec (step dg) init tr s) (hp : s.pc = .proxyGet id a) (h : Clogs k a s)
    (e' : Exec (step dg) s t s') (hn : LeftAlone k t) (hb : Settled t) :
    ownSteps t = 0 ∧ answered (tr ++ t) = answered tr ∧ s'.pc = .proxyGet id a := by
  induction e' with
  | nil => exact ⟨rfl, by rw [List.append_nil], hp⟩
  | @snoc t s₁ s₂ x o e₁ hs ih =>
    have hn' : LeftAlone k t := fun x hx => hn x (List.mem_append_left _ hx)
    have hb' : Settled t := fun x hx => hb x (List.mem_append_left _ hx)
    obtain ⟨h1, h2, h3⟩ := ih hn' hb'
    have hm := move_of_step hs
    obtain ⟨h4, h5⟩ := clogged_pc h3
      (clogs_locked (clogs_exec e h e₁ hn' hb') (good_hist (e.append e₁)).1.fresh) hm
    refine ⟨?_, ?_, h4.trans h3⟩
    · rw [ownSteps_append, h1]
      cases x <;> first | rfl | exact absurd rfl (h5 _)
    · rw [← List.append_assoc, answered_snoc, h2]
      clear ih h3 h4 hb hb' hn hn' hs
      cases hm
      case proxyRecv p x b q _ _ => by_cases hb : (s₁.proxies p).remote = b <;> simp [hb]
      all_goals first | exact List.append_nil _ | exact absurd rfl (h5 _)

theorem clogged_lis {dg : Bool} {s s' : State} {x : Action} {o : Obs} {l c : Nat} (hf : Fresh s)
    (h : (s.liss l).pc = .share c ∨ (s.liss l).alive = false ∧ l < s.lisCount)
    (hl : s.peerLocked (s.conns c).addr = true) (hm : Move dg s x o s') :
    ((s'.liss l).pc = .share c ∨ (s'.liss l).alive = false ∧ l < s'.lisCount) ∧
      ∀ a, x ≠ .accept l a := by
  have h1 := hf.liss l
  clear hf
  cases hm <;> first | exact ⟨h, nofun⟩ | grind [upd, deadLis]

/-- **C100** is false: such a call stops the listener as soon as a connection from the same address
is accepted, or from an address that shares its lock: no connection is accepted any more. -/
theorem C100_listener_hangs {dg : Bool} {tr t : Trace} {s s' : State} {l c k : Nat}
    (e : Exec (step dg) init tr s) (hp : (s.liss l).pc = .share c) (h : Clogs k (s.conns c).addr s)
    (e' : Exec (step dg) s t s') (hn : LeftAlone k t) (hb : Settled t) (a : Addr) (o : Obs) :
    (.accept l a, o) ∉ t := by
  suffices hx : ((s'.liss l).pc = .share c ∨ (s'.liss l).alive = false ∧ l < s'.lisCount) ∧
      (.accept l a, o) ∉ t ∧ c < s'.connCount ∧ (s'.conns c).addr = (s.conns c).addr from hx.2.1
  induction e' with
  | nil => exact ⟨.inl hp, nofun, (peers e).lis l c hp, rfl⟩
  | @snoc t s₁ s₂ x w e₁ hs ih =>
    have hn' : LeftAlone k t := fun x hx => hn x (List.mem_append_left _ hx)
    have hb' : Settled t := fun x hx => hb x (List.mem_append_left _ hx)
    obtain ⟨h1, h2, h3, h4⟩ := ih hn' hb'
    have hm := move_of_step hs
    have hf := (good_hist (e.append e₁)).1.fresh
    have hk := clogs_locked (clogs_exec e h e₁ hn' hb') hf
    rw [← h4] at hk
    obtain ⟨h5, h6⟩ := clogged_lis hf h1 hk hm
    obtain ⟨h7, h8⟩ := hm.conn_keep h3
    refine ⟨h5, ?_, h7, h8.trans h4⟩
    intro hx
    rcases List.mem_append.mp hx with hx | hx
    · exact h2 hx
    · cases List.mem_singleton.mp hx; exact h6 a rfl

/-- The call of `send_to` at a stub is to address `a` and needs its entry. -/
inductive Spec.Ep.Wants (a : Addr) : StubPc → Prop where
  | check (m) : Wants a (.check a m)
  | share (m c) : Wants a (.share a m c)
  | enter (m) : Wants a (.enter a m)

theorem clogged_stub {dg : Bool} {s s' : State} {x : Action} {o : Obs} {j : Nat} {a : Addr}
    (hf : Fresh s) (h : Wants a (s.stubs j).pc) (hl : s.peerLocked a = true)
    (hm : Move dg s x o s') (h2 : x ≠ .stubCancel j) (h3 : x ≠ .dropStub j) :
    (s'.stubs j).pc = (s.stubs j).pc ∧ x ≠ .stubStep j := by
  have h4 : j ≠ s.stubCount := by
    rintro rfl
    rw [hf.stubs _ (Nat.le_refl _)] at h
    cases h
  have h5 := answer_cases s
  have h6 := refuse_cases s
  clear hf
  generalize hp : (s.stubs j).pc = pc at h
  cases h <;> cases hm <;> first | exact ⟨hp, nofun⟩ | grind [upd, stubAt_apply]

/-- **C100** is false: such a call stops the calls of `send_to` at other stubs to the same address,
or to one that shares its lock: they do not return, though the connection may have room. -/
theorem C100_senders_hang {dg : Bool} {tr t : Trace} {s s' : State} {j k : Nat} {a : Addr}
    (e : Exec (step dg) init tr s) (hp : Wants a (s.stubs j).pc) (h : Clogs k a s)
    (e' : Exec (step dg) s t s') (hn : LeftAlone k t) (hb : Settled t)
    (hc : ∀ x ∈ t, x.1 ≠ .stubCancel j ∧ x.1 ≠ .dropStub j) (o : Obs) :
    (.stubStep j, o) ∉ t ∧ (s'.stubs j).pc = (s.stubs j).pc := by
  induction e' with
  | nil => exact ⟨nofun, rfl⟩
  | @snoc t s₁ s₂ x w e₁ hs ih =>
    have hn' : LeftAlone k t := fun x hx => hn x (List.mem_append_left _ hx)
    have hb' : Settled t := fun x hx => hb x (List.mem_append_left _ hx)
    obtain ⟨h2, h3⟩ := ih hn' hb' fun x hx => hc x (List.mem_append_left _ hx)
    have hf := (good_hist (e.append e₁)).1.fresh
    have hx := hc (x, w) (List.mem_append_right _ (List.mem_singleton.mpr rfl))
    obtain ⟨h5, h6⟩ := clogged_stub hf (h3 ▸ hp) (clogs_locked (clogs_exec e h e₁ hn' hb') hf)
      (move_of_step hs) hx.1 hx.2
    refine ⟨fun hx => ?_, h5.trans h3⟩
    rcases List.mem_append.mp hx with hx | hx
    · exact h2 hx
    · cases List.mem_singleton.mp hx; exact h6 rfl

/-- **C100.** A call of `send_to` that is not polled stops nobody who has nothing to do with the
address it is waiting for, and nobody at all if it is not waiting for room in the queue of a
connection: the endpoint, the listener and other calls that need the entry of address `a` go on.
(Missing: the same address, and addresses that share its lock, see `C100_endpoint_hangs`,
`C100_listener_hangs` and `C100_senders_hang`.) -/
theorem C100_partial {dg : Bool} {tr : Trace} {s : State} {a : Addr} (e : Exec (step dg) init tr s)
    (h : ∀ k, ¬ Clogs k a s) :
    (∀ id ok, s.pc = .proxyGet id a → ∃ s' o, step dg s (.ep ok) = some (s', o)) ∧
    (∀ l c, (s.liss l).pc = .share c → (s.conns c).addr = a →
      ∃ s' o, step dg s (.lisShare l) = some (s', o)) ∧
    ∀ j, Wants a (s.stubs j).pc → ∃ s' o, step dg s (.stubStep j) = some (s', o) := by
  have hl : s.peerLocked a = false :=
    not_peerLocked (good_hist e).1.fresh fun k b m c h1 h2 => h k ⟨b, m, c, h1, h2⟩
  refine ⟨fun id ok hp => ?_, fun l c hp hc => ?_, fun j hp => ?_⟩
  · refine C72_goes_on e ok fun hw => ?_
    cases hw with
    | sender id' a' k b m c h1 h2 h3 =>
      rw [hp] at h1
      cases h1
      exact h k ⟨b, m, c, h2, h3⟩
    | receiver id' c i m ms h1 => rw [hp] at h1; cases h1
    | _ => simp_all
  · subst hc
    exact ⟨_, _, step_of_move (.lisShare l c hp hl)⟩
  · generalize hw : (s.stubs j).pc = pc at hp
    cases hp with
    | share m c => exact ⟨_, _, step_of_move (.stubShare j a m c hw hl)⟩
    | check m =>
      by_cases hc : ∃ c, s.peers.get a = some c ∧ s.connStrong c = true
      · obtain ⟨c, hc, hs⟩ := hc
        exact ⟨_, _, step_of_move (.checkOk j a m c hw hl hc hs)⟩
      · have hc : ∀ c, s.peers.get a = some c → s.connStrong c = false := fun c h1 => by
          cases h2 : s.connStrong c with
          | false => rfl
          | true => exact absurd ⟨c, h1, h2⟩ hc
        cases he : s.epStrong with
        | true => exact ⟨_, _, step_of_move (.checkAsk j a m hw hl hc he)⟩
        | false => exact ⟨_, _, step_of_move (.checkFail j a m hw hl hc he)⟩
    | enter m =>
      cases hg : s.peers.get a with
      | none => exact ⟨_, _, step_of_move (.enterNone j a m hw hl hg)⟩
      | some c =>
        cases hs : s.connStrong c with
        | true => exact ⟨_, _, step_of_move (.enterOk j a m c hw hl hg hs)⟩
        | false => exact ⟨_, _, step_of_move (.enterDead j a m c hw hl hg hs)⟩

/-- Two stubs are served, address 8 connects. The socket is busy with a first message to it and a
second one fills the queue; stub 0 waits with a third one and is left alone. -/
def Spec.Ep.clog : List Action :=
  [.serve ⟨1, 1⟩, .ep true, .ep true, .ep true, .ep true, .ep true, .lisCmd 0,
    .serve ⟨2, 1⟩, .ep true, .ep true, .ep true, .ep true, .ep true, .lisCmd 0,
    .accept 0 8, .lisShare 0,
    .stubSend 0 8 msgA, .stubStep 0, .stubStep 0, .stubStep 0, .connCmd 0,
    .stubSend 0 8 msgA, .stubStep 0, .stubStep 0, .stubStep 0,
    .stubSend 0 8 msgA, .stubStep 0, .stubStep 0]

/-- The endpoint is asked for a proxy to address 8. -/
example : ∃ tr s, Exec (step true) init tr s ∧ s.pc = .proxyGet ⟨3, 1⟩ 8 ∧ Clogs 0 8 s ∧
    (s.conns 0).cmds.length = connCap := by
  obtain ⟨tr, s, e, h⟩ := exec_reaches (step := step true) (s := init)
    (clog ++ [.proxy ⟨3, 1⟩ 8, .ep true, .ep true])
    (fun s => decide (s.pc = .proxyGet ⟨3, 1⟩ 8 ∧ (s.stubs 0).pc = .sending 8 msgA 0 ∧
      (s.conns 0).cmds.length = connCap)) (by decide +kernel)
  obtain ⟨h1, h2, h3⟩ := of_decide_eq_true h
  exact ⟨tr, s, e, h1, ⟨8, msgA, 0, h2, rfl⟩, h3⟩

/-- Address 9, which shares the lock, connects, and stub 1 sends to it. -/
example : ∃ tr s, Exec (step true) init tr s ∧ (s.liss 0).pc = .share 1 ∧
    Clogs 0 (s.conns 1).addr s ∧ Wants 9 (s.stubs 1).pc ∧ Clogs 0 9 s := by
  obtain ⟨tr, s, e, h⟩ := exec_reaches (step := step true) (s := init)
    (clog ++ [.hashAddr 9 8, .accept 0 9, .stubSend 1 9 msgB])
    (fun s => decide ((s.liss 0).pc = .share 1 ∧ (s.stubs 0).pc = .sending 8 msgA 0 ∧
      (s.conns 1).addr = 9 ∧ (s.stubs 1).pc = .check 9 msgB ∧ s.peerBucket 8 = s.peerBucket 9))
    (by decide +kernel)
  obtain ⟨h1, h2, h3, h4, h5⟩ := of_decide_eq_true h
  exact ⟨tr, s, e, h1, ⟨8, msgA, 0, h2, by rw [h3, h5]⟩, by rw [h4]; exact .check _,
    ⟨8, msgA, 0, h2, h5⟩⟩

/-- Address 9 has another lock: everybody goes on. -/
example : ∃ tr s, Exec (step true) init tr s ∧ (s.stubs 0).pc = .sending 8 msgA 0 ∧
    (∀ k, ¬ Clogs k 9 s) ∧ s.pc = .proxyGet ⟨3, 1⟩ 9 ∧ (s.liss 0).pc = .share 1 ∧
    (s.conns 1).addr = 9 ∧ Wants 9 (s.stubs 1).pc := by
  obtain ⟨tr, s, e, h⟩ := exec_reaches (step := step true) (s := init)
    (clog ++ [.accept 0 9, .stubSend 1 9 msgB, .proxy ⟨3, 1⟩ 9, .ep true, .ep true])
    (fun s => decide ((s.stubs 0).pc = .sending 8 msgA 0 ∧ s.peerLocked 9 = false ∧
      s.pc = .proxyGet ⟨3, 1⟩ 9 ∧ (s.liss 0).pc = .share 1 ∧ (s.conns 1).addr = 9 ∧
      (s.stubs 1).pc = .check 9 msgB)) (by decide +kernel)
  obtain ⟨h1, h2, h3, h4, h5, h6⟩ := of_decide_eq_true h
  refine ⟨tr, s, e, h1, fun k hk => ?_, h3, h4, h5, by rw [h6]; exact .check _⟩
  rw [clogs_locked hk (good_hist e).1.fresh] at h2
  cases h2

end Rsomeip
