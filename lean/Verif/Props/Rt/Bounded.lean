import Verif.Spec.Steps
import Verif.Lemmas.EpPipe
import Verif.Lemmas.EpWire
import Verif.Lemmas.EpAll
import Verif.Lemmas.EpShut
import Verif.Lemmas.EpQuiet
import Verif.Lemmas.EpOwn
import Verif.Lemmas.EpCaps
import Verif.Lemmas.EpWords
import Verif.Props.Rt.Requests
import Verif.Props.Rt.Send

/-! # Nothing waits for ever

C102: how many steps things take, whatever else happens in between. C103: how much waits in the
queues of an endpoint. -/

namespace Rsomeip

open Rt Rt.Ep Spec Spec.Ep Someip

/-! ## `send_to` -/

/-- The steps a call of `send_to` still makes, at most. -/
def callLeft : StubPc → Nat
  | .idle => 0
  | .check .. => 5
  | .asking .. => 4
  | .asked .. => 3
  | .share .. => 3
  | .enter .. => 2
  | .sending .. => 1

theorem callLeft_le (p : StubPc) : callLeft p ≤ 5 := by cases p <;> simp [callLeft]

theorem callSteps_snoc (k : Nat) (t : Trace) (a : Action) (o : Obs) :
    callSteps k (t ++ [(a, o)]) = callSteps k t + if a = .stubStep k then 1 else 0 := by
  rw [callSteps, List.countP_append]
  simp [List.countP_cons, callSteps]

theorem calls {dg : Bool} {s s' : State} {a : Action} {o : Obs} (m : Move dg s a o s')
    {k : Nat} (h : (s.stubs k).pc ≠ .idle) : (s'.stubs k).pc = .idle ∨
      (if a = .stubStep k then 1 else 0) + callLeft (s'.stubs k).pc ≤ callLeft (s.stubs k).pc := by
  have h5 := answer_cases s
  have h6 := refuse_cases s
  cases m <;> first
    | (refine .inr ?_; simp; done)
    | grind [upd, stubAt_apply, callLeft]

theorem call_over {dg : Bool} {s s' : State} {t : Trace} {k : Nat}
    (e : Exec (step dg) s t s') (h : 5 ≤ callSteps k t) :
    ∃ t₁ t₂ s₁, t = t₁ ++ t₂ ∧ Exec (step dg) s t₁ s₁ ∧ (s₁.stubs k).pc = .idle := by
  suffices key : (∃ t₁ t₂ s₁, t = t₁ ++ t₂ ∧ Exec (step dg) s t₁ s₁ ∧ (s₁.stubs k).pc = .idle) ∨
      (s'.stubs k).pc ≠ .idle ∧ callSteps k t + callLeft (s'.stubs k).pc ≤ callLeft (s.stubs k).pc by
    rcases key with h1 | ⟨h1, h2⟩
    · exact h1
    · have := callLeft_le (s.stubs k).pc
      have : callLeft (s'.stubs k).pc ≠ 0 := by
        cases hp : (s'.stubs k).pc <;> simp_all [callLeft]
      omega
  clear h
  induction e with
  | nil =>
    by_cases h : (s.stubs k).pc = .idle
    · exact .inl ⟨[], [], s, rfl, .nil, h⟩
    · exact .inr ⟨h, by simp [callSteps]⟩
  | @snoc t s₁ s₂ a o e₁ hs ih =>
    rcases ih with ⟨t₁, t₂, s₃, rfl, h2, h3⟩ | ⟨h1, h2⟩
    · exact .inl ⟨t₁, t₂ ++ [(a, o)], s₃, by simp, h2, h3⟩
    · by_cases h : (s₂.stubs k).pc = .idle
      · exact .inl ⟨t ++ [(a, o)], [], s₂, by simp, e₁.snoc hs, h⟩
      · refine .inr ⟨h, ?_⟩
        rcases calls (move_of_step hs) h1 with h4 | h4
        · exact absurd h4 h
        · rw [callSteps_snoc]
          omega

/-- **C102.** A call of `send_to` returns after five steps of its own at most, whatever else happens
in between: unless it was over before, five steps are never made. -/
theorem C102_send_to {dg : Bool} {tr t : Trace} {s s' : State} {k : Nat}
    (e : Exec (step dg) init tr s) (e' : Exec (step dg) s t s') (h : 5 ≤ callSteps k t) :
    ∃ t₁ t₂, t = t₁ ++ t₂ ∧ inCall k (tr ++ t₁) = false := by
  obtain ⟨t₁, t₂, s₁, h1, h2, h3⟩ := call_over e' h
  exact ⟨t₁, t₂, h1, (idle_iff (e.append h2) k).mp h3⟩

/-! ## Packets -/

theorem routeSteps_snoc (c : Nat) (t : Trace) (a : Action) (o : Obs) :
    routeSteps c (t ++ [(a, o)]) = routeSteps c t + if a = .route c then 1 else 0 := by
  rw [routeSteps, List.countP_append]
  simp [List.countP_cons, routeSteps]

/-- The connection is waiting for space in a channel. -/
def putting : RecvPc → Nat
  | .sending .. => 1
  | _ => 0

theorem settles {dg : Bool} {s s' : State} {a : Action} {o : Obs} (m : Move dg s a o s')
    {c : Nat} {tr : Trace} (ha : (s'.conns c).alive = true) (hc : c < s.connCount)
    (hp : (s.conns c).pc.pending ≠ []) :
    (if a = .route c then 1 else 0) + 2 * (settled c tr).length + putting (s.conns c).pc ≤
      2 * (settled c (tr ++ [(a, o)])).length + putting (s'.conns c).pc := by
  rw [settled_snoc]
  cases m <;> first
    | (simp; done)
    | grind [upd, putting, RecvPc.pending, Conn.ended, newConn]

theorem connCount_le {dg : Bool} {s s' : State} {t : Trace} (e : Exec (step dg) s t s') :
    s.connCount ≤ s'.connCount := by
  induction e with
  | nil => exact Nat.le_refl _
  | snoc _ hs ih => exact Nat.le_trans ih (move_of_step hs).connCount

theorem settled_prefix (c : Nat) (t u : Trace) : settled c t <+: settled c (t ++ u) := by
  rw [settled_append]
  exact List.prefix_append ..

theorem heard_prefix (c : Nat) (t u : Trace) : heard c t <+: heard c (t ++ u) := by
  rw [heard, heard, List.flatMap_append]
  exact List.prefix_append ..

theorem packets_or_dead {dg : Bool} {tr t : Trace} {s s' : State} {c : Nat}
    (e : Exec (step dg) init tr s) (e' : Exec (step dg) s t s')
    (h : 2 * ((heard c tr).length - (settled c tr).length) ≤ routeSteps c t) :
    heard c tr <+: settled c (tr ++ t) ∨ (s'.conns c).alive = false := by
  by_cases hc : s.connCount ≤ c
  · left
    rw [((line e).fresh c hc).1]
    exact List.nil_prefix
  suffices key : (s'.conns c).alive = true → heard c tr <+: settled c (tr ++ t) ∨
      c < s'.connCount ∧ routeSteps c t + 2 * (settled c tr).length ≤
        2 * (settled c (tr ++ t)).length + putting (s'.conns c).pc by
    cases ha : (s'.conns c).alive with
    | false => exact .inr rfl
    | true =>
      left
      rcases key ha with h1 | ⟨_, h1⟩
      · exact h1
      · have h2 := (line (e.append e')).alive c ha
        have h3 := heard_prefix c tr t
        rw [← h2] at h3
        refine List.prefix_of_prefix_length_le h3 (List.prefix_append ..) ?_
        have : putting (s'.conns c).pc ≤ 1 := by cases (s'.conns c).pc <;> simp [putting]
        omega
  clear h
  induction e' with
  | nil => exact fun _ => .inr ⟨by omega, by simp [routeSteps]⟩
  | @snoc t s₁ s₂ a o e₁ hs ih =>
    intro ha
    have m := move_of_step hs
    have hc1 : c < s₁.connCount := by
      have := connCount_le e₁
      omega
    have h1 : (s₁.conns c).alive = true := by
      rcases m.alive_new c ha with h1 | ⟨h1, _⟩
      · exact h1
      · omega
    rw [← List.append_assoc]
    by_cases hp : (s₁.conns c).pc.pending = []
    · left
      have h2 := (line (e.append e₁)).alive c h1
      rw [hp, List.append_nil] at h2
      refine (heard_prefix c tr t).trans ?_
      rw [← h2]
      exact settled_prefix ..
    · rcases ih h1 with h2 | ⟨h2, h3⟩
      · exact .inl (h2.trans (settled_prefix ..))
      · refine .inr ⟨?_, ?_⟩
        · have := connCount_le (e₁.snoc hs)
          omega
        · have := settles (tr := tr ++ t) m ha h2 hp
          rw [routeSteps_snoc]
          omega

/-- **C102.** A connection deals with a message it received in two steps: when it has made two for
every message it had received and not dealt with, it has dealt with all of them or has ended. -/
theorem C102_packets {dg : Bool} {tr t : Trace} {s s' : State} {c : Nat}
    (e : Exec (step dg) init tr s) (e' : Exec (step dg) s t s')
    (h : 2 * ((heard c tr).length - (settled c tr).length) ≤ routeSteps c t) :
    heard c tr <+: settled c (tr ++ t) ∨ ConnOver c (tr ++ t) := by
  by_cases hc : s.connCount ≤ c
  · left
    rw [((line e).fresh c hc).1]
    exact List.nil_prefix
  · exact (packets_or_dead e e' h).imp id
      (over_of_dead (e.append e') (Nat.lt_of_lt_of_le (by omega) (connCount_le e')))

/-! ## Messages to be sent -/

theorem sendSteps_snoc (c : Nat) (t : Trace) (a : Action) (o : Obs) :
    sendSteps c (t ++ [(a, o)]) = sendSteps c t +
      if a = .connCmd c ∨ a = .sent c true ∨ a = .sent c false then 1 else 0 := by
  rw [sendSteps, List.countP_append]
  simp [List.countP_cons, sendSteps, or_assoc]

/-- The steps a connection still makes, at most, until the socket was given `d` more messages. -/
def sendLeft (d : Nat) (out : Option Bytes) : Nat := if out.isSome then 2 * d - 1 else 2 * d

theorem sends {dg : Bool} {s s' : State} {a : Action} {o : Obs} (m : Move dg s a o s')
    {c d : Nat} {tr : Trace} (ha : (s'.conns c).alive = true) (hc : c < s.connCount) (hd : 0 < d)
    (h : d ≤ (s.conns c).todo.length) (hq : (s.conns c).cmds.length ≤ 1) :
    (if a = .connCmd c ∨ a = .sent c true ∨ a = .sent c false then 1 else 0) +
        sendLeft (d + (onWire c tr).length - (onWire c (tr ++ [(a, o)])).length) (s'.conns c).out ≤
      sendLeft d (s.conns c).out := by
  rw [onWire_snoc]
  cases m
  case cmdMessage => grind [upd, sendLeft]
  case cmdTake e id i q h1 h2 h3 =>
    by_cases he : e = c
    · subst he
      exfalso
      rw [h3] at hq
      have : q = [] := by
        cases q
        · rfl
        · simp at hq
      simp [Conn.todo, h2, h3, this, messages] at h
      omega
    · simp [he, upd, Ne.symm he]
  case sentOk e b h1 =>
    by_cases he : e = c
    · subst he
      simp [sendLeft, upd, h1]
      omega
    · simp [he, upd, Ne.symm he]
  all_goals first
    | (simp; done)
    | grind [upd, Conn.ended, newConn]

theorem sent_or_dead {dg : Bool} {tr t : Trace} {s s' : State} {c : Nat}
    (e : Exec (step dg) init tr s) (e' : Exec (step dg) s t s') (h : 3 ≤ sendSteps c t) :
    (accepted c tr).map wireForm <+: onWire c (tr ++ t) ∨ (s'.conns c).alive = false := by
  by_cases hc : s.connCount ≤ c
  · left
    rw [((wire e).new c hc).2]
    exact List.nil_prefix
  suffices key : (s'.conns c).alive = true →
      (accepted c tr).length ≤ (onWire c (tr ++ t)).length ∨
      sendSteps c t + sendLeft ((accepted c tr).length - (onWire c (tr ++ t)).length)
        (s'.conns c).out ≤ 3 by
    cases ha : (s'.conns c).alive with
    | false => exact .inr rfl
    | true =>
      left
      have h1 := key ha
      have h2 := (wire (e.append e')).alive c ha
      have h3 : (accepted c tr).map wireForm <+: (accepted c (tr ++ t)).map wireForm := by
        rw [accepted, accepted, List.filterMap_append]
        exact (List.prefix_append ..).map _
      rw [← h2] at h3
      refine List.prefix_of_prefix_length_le h3 (List.prefix_append ..) ?_
      simp only [List.length_map]
      simp only [sendLeft] at h1
      split at h1 <;> omega
  clear h
  induction e' with
  | nil =>
    intro ha
    right
    have h1 := congrArg List.length ((wire e).alive c ha)
    have h2 := (caps e).conn c
    have h3 : (messages (s.conns c).cmds).length ≤ (s.conns c).cmds.length :=
      List.length_filterMap_le ..
    simp only [List.append_nil, sendSteps, List.countP_nil, sendLeft]
    simp only [Conn.todo, List.length_append, List.length_map] at h1
    cases hout : (s.conns c).out <;> simp [hout] at h1 ⊢ <;> omega
  | @snoc t s₁ s₂ a o e₁ hs ih =>
    intro ha
    have m := move_of_step hs
    have hc1 : c < s₁.connCount := by
      have := connCount_le e₁
      omega
    have h1 : (s₁.conns c).alive = true := by
      rcases m.alive_new c ha with h1 | ⟨h1, _⟩
      · exact h1
      · omega
    have h4 := congrArg List.length ((wire (e.append e₁)).alive c h1)
    have h5 : (accepted c tr).length ≤ (accepted c (tr ++ t)).length := by
      rw [accepted, accepted, List.filterMap_append]
      simp
    have h6 := (caps (e.append e₁)).conn c
    have h7 : (onWire c (tr ++ t)).length ≤ (onWire c (tr ++ t ++ [(a, o)])).length := by
      rw [onWire_snoc]
      simp
    rw [← List.append_assoc, sendSteps_snoc]
    simp only [List.length_append, List.length_map] at h4
    rcases ih h1 with h2 | h2
    · left
      omega
    · by_cases hd : (accepted c tr).length ≤ (onWire c (tr ++ t)).length
      · left
        omega
      · right
        have := sends (d := (accepted c tr).length - (onWire c (tr ++ t)).length) (tr := tr ++ t)
          m ha hc1 (by omega) (by omega) h6
        rw [Nat.sub_add_cancel (by omega)] at this
        omega

/-- **C102.** A connection hands a message to the socket after three steps at most: when it has made
three, all messages accepted before have been given to the socket in their wire form and in order, or
the connection has ended. -/
theorem C102_sent {dg : Bool} {tr t : Trace} {s s' : State} {c : Nat}
    (e : Exec (step dg) init tr s) (e' : Exec (step dg) s t s') (h : 3 ≤ sendSteps c t) :
    (accepted c tr).map wireForm <+: onWire c (tr ++ t) ∨ ConnOver c (tr ++ t) := by
  by_cases hc : s.connCount ≤ c
  · left
    rw [((wire e).new c hc).2]
    exact List.nil_prefix
  · exact (sent_or_dead e e' h).imp id
      (over_of_dead (e.append e') (Nat.lt_of_lt_of_le (by omega) (connCount_le e')))

/-! ## Requests -/

/-- **C102.** `serve` and `proxy` return after 54 steps of the endpoint task at most. -/
theorem C102_requests {dg : Bool} {tr t : Trace} {s s' : State} (e : Exec (step dg) init tr s)
    (e' : Exec (step dg) s t s') (h : 54 ≤ ownSteps t) : requests tr <+: answered (tr ++ t) := by
  have := (caps e).ep
  exact C72_bounded e e' (by omega)

/-- The endpoint task works off its queue, and only new requests come in. -/
theorem works_new {dg : Bool} {s s' : State} {a : Action} {o : Obs} (m : Move dg s a o s')
    {old new : List EpCmd} (hq : s.cmds = old ++ new) :
    (old = [] ∧ s.pc.left = 0) ∨
    ∃ old' add, s'.cmds = old' ++ (new ++ add) ∧
      (∀ k b u, .connect k b u ∈ add → u = s.asks) ∧
      6 * old'.length + s'.pc.left + ownSteps [(a, o)] ≤ 6 * old.length + s.pc.left := by
  cases m
  case serve id _ _ => exact .inr ⟨old, [.serve id], by simp [hq], by simp, by simp [ownSteps]⟩
  case proxy id b _ _ => exact .inr ⟨old, [.proxy id b], by simp [hq], by simp, by simp [ownSteps]⟩
  case ask k b m _ _ =>
    exact .inr ⟨old, [.connect k b s.asks], by simp [hq], by simp, by simp [ownSteps]⟩
  case epStop => exact .inl ⟨by simp_all, by simp_all [EpPc.left]⟩
  case epServe hpc hq' | epProxy hpc hq' | epConnect hpc hq' =>
    cases old with
    | nil => exact .inl ⟨rfl, by rw [hpc]; rfl⟩
    | cons x old =>
      rw [hq'] at hq
      obtain ⟨rfl, rfl⟩ := List.cons.inj hq
      exact .inr ⟨old, [], by simp, by simp, by simp [hpc, EpPc.left, ownSteps]; omega⟩
  all_goals
    refine .inr ⟨old, [], by simpa using hq, by simp, ?_⟩
    simp_all [EpPc.left, ownSteps]

theorem asks_le {dg : Bool} {s s' : State} {t : Trace} (e : Exec (step dg) s t s') :
    s.asks ≤ s'.asks := by
  induction e with
  | nil => exact Nat.le_refl _
  | snoc _ hs ih =>
    refine Nat.le_trans ih ?_
    cases move_of_step hs <;> simp

/-- A stub that waits for an answer waits for the same one, or does not wait any more. -/
theorem still_asked {dg : Bool} {s s' : State} {a : Action} {o : Obs} (m : Move dg s a o s')
    {k u : Nat} {b : Addr} {x : Msg} (h : (s.stubs k).pc = .asked b x u) :
    (s'.stubs k).pc = .asked b x u ∨ ∀ b x u, (s'.stubs k).pc ≠ .asked b x u := by
  have h5 := answer_cases s
  have h6 := refuse_cases s
  cases m <;> first | exact .inl h | grind [upd, stubAt_apply]

/-- **C102.** A stub that asks for a connection has an answer after 54 steps of the endpoint task at
most. -/
theorem C102_connect {dg : Bool} {tr t : Trace} {s s' : State} {k : Nat}
    (e : Exec (step dg) init tr s) (e' : Exec (step dg) s t s') (h : 54 ≤ ownSteps t) :
    ∃ t₁ t₂ s₁, t = t₁ ++ t₂ ∧ Exec (step dg) s t₁ s₁ ∧
      ∀ a m u, (s₁.stubs k).pc ≠ .asked a m u := by
  by_cases hk : ∀ a m u, (s.stubs k).pc ≠ .asked a m u
  · exact ⟨[], t, s, rfl, .nil, hk⟩
  · have ⟨b, x, u, hk⟩ : ∃ a m u, (s.stubs k).pc = .asked a m u := by simpa using hk
    have hu : u < s.asks := by
      rcases (asks_over e).1 k b x u hk with ⟨c, h1⟩ | ⟨c, h1⟩
      · exact ((peers e).queued k c u h1).1
      · exact ((peers e).current k c u h1).1
    suffices key : (∃ t₁ t₂ s₁, t = t₁ ++ t₂ ∧ Exec (step dg) s t₁ s₁ ∧
        ∀ a m u, (s₁.stubs k).pc ≠ .asked a m u) ∨ (s'.stubs k).pc = .asked b x u ∧
        ∃ old new, s'.cmds = old ++ new ∧ (∀ k b u, .connect k b u ∈ new → s.asks ≤ u) ∧
          ownSteps t + 6 * old.length + s'.pc.left ≤ 6 * s.cmds.length + s.pc.left by
      rcases key with h1 | ⟨_, old, new, _, _, h1⟩
      · exact h1
      · have := s.pc.left_le
        have := (caps e).ep
        omega
    clear h
    induction e' with
    | nil => exact .inr ⟨hk, s.cmds, [], by simp, by simp, by simp [ownSteps]⟩
    | @snoc t s₁ s₂ a o e₁ hs ih =>
      rcases ih with ⟨t₁, t₂, s₃, rfl, h2, h3⟩ | ⟨h1, old, new, h2, h3, h4⟩
      · exact .inl ⟨t₁, t₂ ++ [(a, o)], s₃, by simp, h2, h3⟩
      · rcases still_asked (move_of_step hs) h1 with h5 | h5
        · right
          refine ⟨h5, ?_⟩
          rcases works_new (move_of_step hs) h2 with ⟨rfl, h6⟩ | ⟨old', add, h6, h7, h8⟩
          · exfalso
            rcases (asks_over (e.append e₁)).1 k b x u h1 with ⟨c, h8⟩ | ⟨c, h8⟩
            · rw [h2, List.nil_append] at h8
              have := h3 k c u h8
              omega
            · rw [h8] at h6
              simp [EpPc.left] at h6
          · refine ⟨old', new ++ add, h6, ?_, ?_⟩
            · intro k b u h9
              rcases List.mem_append.mp h9 with h9 | h9
              · exact h3 k b u h9
              · rw [h7 k b u h9]
                exact asks_le e₁
            · rw [ownSteps_append]
              omega
        · exact .inl ⟨t ++ [(a, o)], [], s₂, by simp, e₁.snoc hs, h5⟩

/-! ## C103 -/

/-- **C103.** At most nine calls of `serve` and `proxy` wait for an answer: those in the queue and the
one the endpoint task is at. -/
theorem C103_requests {dg : Bool} {tr : Trace} {s : State} (e : Exec (step dg) init tr s) :
    (requests tr).length ≤ (answered tr).length + 9 := by
  have h1 := (caps e).ep
  have h2 : (waiting s.cmds).length ≤ s.cmds.length := List.length_filterMap_le ..
  have h3 : s.pc.current.length ≤ 1 := by cases s.pc <;> simp [EpPc.current]
  rw [← asked e]
  simp only [List.length_append]
  omega

/-- **C103.** A connection that has not ended has at most two messages it was asked to send and has
not handed to the socket. -/
theorem C103_sent {dg : Bool} {tr : Trace} {s : State} {c : Nat} (e : Exec (step dg) init tr s)
    (h : ConnOpen c tr) : (accepted c tr).length ≤ (onWire c tr).length + 2 := by
  rw [← conn_open_iff e] at h
  have h1 := congrArg List.length ((wire e).alive c h)
  have h2 := (caps e).conn c
  have h3 : (messages (s.conns c).cmds).length ≤ (s.conns c).cmds.length :=
    List.length_filterMap_le ..
  have h4 : (s.conns c).out.toList.length ≤ 1 := by cases (s.conns c).out <;> simp
  simp only [Conn.todo, List.length_append, List.length_map] at h1
  omega

theorem stub_waits {dg : Bool} {tr : Trace} {s : State} {k : Nat} (e : Exec (step dg) init tr s)
    (h : (s.stubs k).alive = true) :
    ∃ q, stubGot k tr ++ q = routedTo (s.stubs k).iface tr ∧ q.length ≤ 16 :=
  ⟨_, (pipe e).stub k h, (caps e).iface _⟩

/-- **C103.** At most sixteen messages wait for a stub that was not dropped. -/
theorem C103_stub {dg : Bool} {tr : Trace} {s : State} {k i : Nat} {id : InterfaceId}
    (e : Exec (step dg) init tr s) (hs : Shown tr (.serving k i id)) (h : (.dropStub k, .none) ∉ tr) :
    ∃ q, stubGot k tr ++ q = routedTo i tr ∧ q.length ≤ 16 := by
  rw [← ((made e).stub k i id hs).2.1]
  exact stub_waits e ((stub_open_iff e k).mpr ⟨⟨i, id, hs⟩, h⟩)

theorem proxy_waits {dg : Bool} {tr : Trace} {s : State} {p : Nat} (e : Exec (step dg) init tr s)
    (h : (s.proxies p).alive = true) :
    (routedTo (s.proxies p).iface tr).length ≤ proxyReads p tr + 16 := by
  have h1 := congrArg List.length ((pipe e).proxy p h)
  have h2 := (caps e).iface (s.proxies p).iface
  have h3 : ∀ r (tr : Trace), (took p r tr).length = proxyReads p tr := by
    intro r tr
    rw [took, proxyReads]
    induction tr with
    | nil => rfl
    | cons x tr ih =>
      obtain ⟨a, o⟩ := x
      rw [List.filterMap_cons, List.countP_cons, ← ih]
      cases a <;> try simp
      cases o <;> simp
      all_goals split <;> simp_all
  rw [List.length_append, h3] at h1
  omega

/-- **C103.** At most sixteen messages wait for a proxy that was not dropped. -/
theorem C103_proxy {dg : Bool} {tr : Trace} {s : State} {p i : Nat} {id : InterfaceId} {r : Addr}
    (e : Exec (step dg) init tr s) (hs : Shown tr (.proxying p i id r))
    (h : (.dropProxy p, .none) ∉ tr) : (routedTo i tr).length ≤ proxyReads p tr + 16 := by
  rw [← ((made e).proxy p i id r hs).2.1]
  exact proxy_waits e ((proxy_open_iff e p).mpr ⟨⟨i, id, r, hs⟩, h⟩)

/-- **C102.** A message that was put into the channel of a stub is among the next sixteen the stub
returns. -/
theorem C102_recv {dg : Bool} {tr t : Trace} {s s' : State} {k i : Nat} {id : InterfaceId}
    (e : Exec (step dg) init tr s) (e' : Exec (step dg) s t s') (hs : Shown tr (.serving k i id))
    (hd : (.dropStub k, .none) ∉ tr) (h : 16 ≤ (stubGot k t).length) :
    routedTo i tr <+: stubGot k (tr ++ t) := by
  have ha := (stub_open_iff e k).mpr ⟨⟨i, id, hs⟩, hd⟩
  rw [← ((made e).stub k i id hs).2.1]
  obtain ⟨q, h1, h2⟩ := stub_waits e ha
  have hi : (s'.stubs k).iface = (s.stubs k).iface := by
    have hk := stub_lt (good_hist e).1.fresh ha
    clear h1 h2 h
    suffices key : k < s'.stubCount ∧ (s'.stubs k).iface = (s.stubs k).iface from key.2
    induction e' with
    | nil => exact ⟨hk, rfl⟩
    | snoc _ hs ih =>
      have h3 := (move_of_step hs).stub_keep ih.1
      exact ⟨h3.1, h3.2.1.trans ih.2⟩
  have h3 := (pipe (e.append e')).stubPrefix k
  rw [hi] at h3
  refine List.prefix_of_prefix_length_le ?_ h3 ?_
  · rw [routedTo, routedTo, List.filterMap_append]
    exact List.prefix_append ..
  · rw [← h1, stubGot, stubGot, List.filterMap_append, List.length_append, List.length_append]
    simp only [stubGot] at h
    omega

/-- Two executions, one after the other. -/
theorem exec_twice {dg : Bool} (as bs : List Action) (P : Trace → State → Trace → State → Bool)
    (h : ((perform (step dg) init as).bind fun x =>
      (perform (step dg) x.2 bs).map fun y => P x.1 x.2 y.1 y.2) = some true) :
    ∃ tr s t s', Exec (step dg) init tr s ∧ Exec (step dg) s t s' ∧ P tr s t s' = true := by
  cases hp : perform (step dg) init as with
  | none => rw [hp] at h; cases h
  | some x =>
    rw [hp] at h
    cases hq : perform (step dg) x.2 bs with
    | none => rw [Option.bind_some, hq] at h; cases h
    | some y =>
      rw [Option.bind_some, hq] at h
      exact ⟨x.1, x.2, y.1, y.2, exec_of_perform hp, exec_of_perform hq, Option.some.inj h⟩

/-- A call that makes five steps: there is no connection to the destination yet. After four it has not
returned. -/
example : ∃ tr s t s', Exec (step true) init tr s ∧ Exec (step true) s t s' ∧
    inCall 0 tr = true ∧ 5 ≤ callSteps 0 t ∧ t.getLast?.map Prod.snd = some (.accepted 1 msgA) := by
  obtain ⟨tr, s, t, s', e, e', h⟩ := exec_twice (dg := true) (stubActions ++ [.stubSend 0 9 msgA])
    [.stubStep 0, .stubStep 0, .ep true, .ep true, .stubStep 0, .stubStep 0, .stubStep 0]
    (fun tr _ t _ => decide (inCall 0 tr = true ∧ 5 ≤ callSteps 0 t ∧
      t.getLast?.map Prod.snd = some (.accepted 1 msgA))) (by decide +kernel)
  exact ⟨tr, s, t, s', e, e', of_decide_eq_true h⟩

/-- A packet with three messages, one of them for nobody: five steps, at most six. -/
example : ∃ tr s t s', Exec (step true) init tr s ∧ Exec (step true) s t s' ∧
    heard 0 tr = [msgA, msgC, msgA] ∧ settled 0 tr = [] ∧
    2 * ((heard 0 tr).length - (settled 0 tr).length) ≤ routeSteps 0 t ∧
    settled 0 t = [msgA, msgC, msgA] := by
  obtain ⟨tr, s, t, s', e, e', h⟩ := exec_twice (dg := true)
    (stubActions ++ [.packet 0 (.packet (frame msgA ++ frame msgC ++ frame msgA))])
    (List.replicate 6 (.route 0))
    (fun tr s t _ => decide ((s.conns 0).alive = true ∧ (s.conns 0).pc.pending = [msgA, msgC, msgA] ∧
      settled 0 tr = [] ∧ routeSteps 0 t = 6 ∧ settled 0 t = [msgA, msgC, msgA])) (by decide +kernel)
  obtain ⟨h1, h2, h3, h4, h5⟩ := of_decide_eq_true h
  have h6 := (line e).alive 0 h1
  rw [h2, h3, List.nil_append] at h6
  exact ⟨tr, s, t, s', e, e', h6.symm, h3, by rw [← h6, h3, h4]; decide, h5⟩

/-- Two messages are on their way to the socket: three steps. -/
example : ∃ tr s t s', Exec (step true) init tr s ∧ Exec (step true) s t s' ∧
    accepted 0 tr = [msgB, msgB'] ∧ onWire 0 tr = [] ∧ 3 ≤ sendSteps 0 t ∧
    onWire 0 t = [frame msgB, frame msgB'] ∧ ConnOpen 0 (tr ++ t) := by
  obtain ⟨tr, s, t, s', e, e', h⟩ := exec_twice (dg := true)
    [.proxy ⟨2, 1⟩ 7, .ep true, .ep true, .ep true, .ep true, .ep true, .ep true, .connCmd 0,
      .proxySend 0 msgB, .connCmd 0, .proxySend 0 msgB']
    [.sent 0 true, .connCmd 0, .sent 0 true]
    (fun tr _ t s' => decide (accepted 0 tr = [msgB, msgB'] ∧ onWire 0 tr = [] ∧ 3 ≤ sendSteps 0 t ∧
      onWire 0 t = [frame msgB, frame msgB'] ∧ (s'.conns 0).alive = true)) (by decide +kernel)
  obtain ⟨h1, h2, h3, h4, h5⟩ := of_decide_eq_true h
  exact ⟨tr, s, t, s', e, e', h1, h2, h3, h4, (conn_open_iff (e.append e') 0).mp h5⟩

/-- Eight requests are in the queue when a stub waits for an answer, and 54 steps follow. -/
example : ∃ tr s t s', Exec (step true) init tr s ∧ Exec (step true) s t s' ∧ s.cmds.length = 8 ∧
    (s.stubs 0).pc = .asked 9 msgA 0 ∧ 54 ≤ ownSteps t ∧ (s'.stubs 0).pc = .share 9 msgA 1 := by
  obtain ⟨tr, s, t, s', e, e', h⟩ := exec_twice (dg := true)
    (stubActions ++ List.replicate 7 (.serve ⟨1, 1⟩) ++
      [.stubSend 0 9 msgA, .stubStep 0, .stubStep 0])
    (List.replicate 16 (.ep true) ++
      (List.replicate 19 [.serve ⟨1, 1⟩, .ep true, .ep true]).flatten)
    (fun _ s t s' => decide (s.cmds.length = 8 ∧ (s.stubs 0).pc = .asked 9 msgA 0 ∧
      54 ≤ ownSteps t ∧ (s'.stubs 0).pc = .share 9 msgA 1)) (by decide +kernel)
  exact ⟨tr, s, t, s', e, e', of_decide_eq_true h⟩

/-- Sixteen messages wait for a stub that then returns them. -/
example : ∃ tr s t s', Exec (step true) init tr s ∧ Exec (step true) s t s' ∧
    Shown tr (.serving 0 0 ⟨1, 1⟩) ∧ (.dropStub 0, .none) ∉ tr ∧ (routedTo 0 tr).length = 16 ∧
    stubGot 0 tr = [] ∧ 16 ≤ (stubGot 0 t).length := by
  obtain ⟨tr, s, t, s', e, e', h⟩ := exec_twice (dg := true)
    (stubActions ++ [.packet 0 (.packet (List.replicate 17 (frame msgA)).flatten)] ++
      List.replicate 33 (.route 0))
    (List.replicate 16 (.stubRecv 0))
    (fun tr _ t _ => decide (.serving 0 0 ⟨1, 1⟩ ∈ tr.map Prod.snd ∧ (.dropStub 0, .none) ∉ tr ∧
      (routedTo 0 tr).length = 16 ∧ stubGot 0 tr = [] ∧
      16 ≤ (stubGot 0 t).length)) (by decide +kernel)
  obtain ⟨h1, h2⟩ := of_decide_eq_true h
  exact ⟨tr, s, t, s', e, e', shown_of_mem h1, h2⟩

/-- The bounds are reached: nine calls wait, two messages are to be sent, sixteen messages wait for a
proxy. -/
example : (∃ tr s, Exec (step true) init tr s ∧ (requests tr).length = (answered tr).length + 9) ∧
    (∃ tr s, Exec (step true) init tr s ∧ ConnOpen 0 tr ∧
      (accepted 0 tr).length = (onWire 0 tr).length + 2) ∧
    ∃ tr s, Exec (step true) init tr s ∧ Shown tr (.proxying 0 0 ⟨2, 1⟩ 7) ∧
      (.dropProxy 0, .none) ∉ tr ∧ (routedTo 0 tr).length = proxyReads 0 tr + 16 ∧
      proxyReads 0 tr = 1 := by
  refine ⟨?_, ?_, ?_⟩
  · obtain ⟨tr, s, e, h⟩ := exec_by (step := step true) (s := init)
      (.serve ⟨1, 1⟩ :: .ep true :: List.replicate 8 (.serve ⟨1, 1⟩))
      (fun tr _ => decide ((requests tr).length = (answered tr).length + 9)) (by decide +kernel)
    exact ⟨tr, s, e, of_decide_eq_true h⟩
  · obtain ⟨tr, s, e, h⟩ := exec_by (step := step true) (s := init)
      [.proxy ⟨2, 1⟩ 7, .ep true, .ep true, .ep true, .ep true, .ep true, .ep true, .connCmd 0,
        .proxySend 0 msgB, .connCmd 0, .proxySend 0 msgB']
      (fun tr s => decide ((s.conns 0).alive = true ∧
        (accepted 0 tr).length = (onWire 0 tr).length + 2)) (by decide +kernel)
    obtain ⟨h1, h2⟩ := of_decide_eq_true h
    exact ⟨tr, s, e, (conn_open_iff e 0).mp h1, h2⟩
  · obtain ⟨tr, s, e, h⟩ := exec_by (step := step true) (s := init)
      ([.proxy ⟨2, 1⟩ 7, .ep true, .ep true, .ep true, .ep true, .ep true, .ep true, .connCmd 0,
        .packet 0 (.packet (List.replicate 17 (frame msgB)).flatten)] ++
        List.replicate 33 (.route 0) ++ [.proxyRecv 0, .route 0])
      (fun tr _ => decide (.proxying 0 0 ⟨2, 1⟩ 7 ∈ tr.map Prod.snd ∧ (.dropProxy 0, .none) ∉ tr ∧
        (routedTo 0 tr).length = proxyReads 0 tr + 16 ∧ proxyReads 0 tr = 1))
      (by decide +kernel)
    obtain ⟨h1, h2⟩ := of_decide_eq_true h
    exact ⟨tr, s, e, shown_of_mem h1, h2⟩

end Rsomeip
