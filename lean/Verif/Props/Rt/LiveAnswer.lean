import Verif.Props.Rt.Home
import Verif.Props.Rt.LiveFree

/-! # C136: in the long run a server's answers get to its clients -/

namespace Rsomeip

section
open Rt Rt.Ep Spec Spec.Ep Someip

variable {dg : Bool} {r : Run dg}

/-- While a connection is registered for `a`, a call of `send_to` to `a` goes on until the message is put into
the queue of this connection, or it is given up. -/
theorem homed_goes {s s' : State} {y : Action} {o : Obs} {a : Addr} {x : Msg} {k c : Nat}
    (h : Homed s a c) (hf : Fresh s) (hc : (s.stubs k).pc.call = some (a, x)) (hs : step dg s y = some (s', o))
    (hn : y = .stubStep k → o = .none ∨ o = .accepted c x) :
    (s'.stubs k).pc.call = some (a, x) ∨ (y = .stubStep k ∧ o = .accepted c x) ∨ y = .stubCancel k ∨
      y = .dropStub k := by
  have h1 : ∀ b m t, (s.stubs k).pc ≠ .asked b m t := by
    intro b m t h2
    rw [h2] at hc
    cases hc
    exact h.asked k x t h2
  have h2 : k ≠ s.stubCount := by
    rintro rfl
    rw [hf.stubs _ (Nat.le_refl _)] at hc
    cases hc
  have h9 := answer_cases s
  have h10 := refuse_cases s
  clear h hf
  cases move_of_step hs <;> first
    | exact .inl hc
    | grind [upd, stubAt_apply, StubPc.call]

theorem Spec.Ep.Home.append {t u : Trace} {l c : Nat} {a : Addr} (h : Home t l c a)
    (hu : ∀ l' o, (.accept l' a, o) ∉ u) : Home (t ++ u) l c a := by
  obtain ⟨t₁, t₂, t₃, rfl, h1, h2, h3⟩ := h
  refine ⟨t₁, t₂, t₃ ++ u, by simp, h1, fun l' o h => ?_, h3⟩
  rw [← List.append_assoc, List.mem_append] at h
  rcases h with h | h
  · exact h2 l' o h
  · exact hu l' o h

/-- What a stub sends to a connection that a listener has registered goes there. -/
theorem answer_goes (r : Run dg) (hf : r.FairTasks) (hb : r.Settles) {k i l c : Nat} {a : Addr} {x : Msg}
    (h : r.act i = some (.stubSend k a x, .none)) (hh : Home (r.hist i) l c a) :
    ∃ j, i < j ∧ (r.act j = some (.stubStep k, .accepted c x) ∨ r.Does j (· = .stubCancel k) ∨
      r.Does j (· = .dropStub k) ∨ ¬ Serving (r.hist j) l c ∨ r.Does j fun y => ∃ l', y = .accept l' a) := by
  apply Classical.byContradiction
  intro hn
  have n1 : ∀ j, i < j → Serving (r.hist j) l c := fun j hj => Classical.byContradiction fun h' =>
    hn ⟨j, hj, .inr (.inr (.inr (.inl h')))⟩
  have n2 : ∀ j, i < j → Home (r.hist j) l c a := by
    intro j hj
    induction j, hj using Nat.le_induction with
    | base =>
      rw [r.hist_succ, h]
      exact hh.append (by simp)
    | succ j hj ih =>
      rw [r.hist_succ]
      refine ih.append fun l' o h' => ?_
      have h' := Option.mem_toList.mp h'
      exact hn ⟨j, by omega, .inr (.inr (.inr (.inr ⟨_, o, h', l', rfl⟩)))⟩
  have n3 := fun j hj => home (r.exec j) (n2 j hj) (n1 j hj)
  have n4 : ∀ j, i < j → ((r.state j).stubs k).pc.call = some (a, x) := by
    intro j hj
    induction j, hj using Nat.le_induction with
    | base =>
      rcases r.move i with ⟨h1, _⟩ | ⟨z, o, h1, h2⟩
      · rw [h] at h1; cases h1
      · rw [h] at h1
        cases h1
        generalize r.state (i + 1) = s' at *
        cases move_of_step h2
        simp [stubAt_apply, StubPc.call]
    | succ j hj ih =>
      rcases r.move j with ⟨_, h2⟩ | ⟨y, o, h1, h2⟩
      · rw [h2]; exact ih
      · obtain ⟨k1, k2, k3, k4, k5, k6, k7⟩ := n3 j hj
        have hst : Serving [(y, o)] l c := by
          have := n1 (j + 1) (by omega)
          rw [r.hist_succ, h1] at this
          exact this.mono.2
        have hg := (good_hist (r.exec j)).1.fresh
        have hal := (serving_step (move_of_step h2) hst k1 k2 k3 k4).2
        have h3 := k5.step (peers (r.exec j)) (move_of_step h2)
          (fun l' h' => hn ⟨j, hj, .inr (.inr (.inr (.inr ⟨y, o, h1, l', h'⟩)))⟩) (lis_strong hg k7) hal
        rcases homed_goes k5 hg ih h2 (fun h' => h3.2 k x h' ih) with h4 | ⟨rfl, rfl⟩ | rfl | rfl
        · exact h4
        · exact absurd ⟨j, hj, .inl h1⟩ hn
        · exact absurd ⟨j, hj, .inr (.inl ⟨_, o, h1, rfl⟩)⟩ hn
        · exact absurd ⟨j, hj, .inr (.inr (.inl ⟨_, o, h1, rfl⟩))⟩ hn
  obtain ⟨m, h1, h2⟩ := calls_return r hf hb h fun j hj _ =>
    have h3 := n3 j hj
    ⟨c, h3.2.2.2.2.1.peer, lis_strong (good_hist (r.exec j)).1.fresh h3.2.2.2.2.2.2⟩
  have h3 := n4 m h1
  rw [(idle_iff (r.exec m) k).mpr h2] at h3
  cases h3

/-- As before, and until then the call goes on. -/
theorem answer_during (r : Run dg) (hf : r.FairTasks) (hb : r.Settles) {k i l c : Nat} {a : Addr} {x : Msg}
    (h : r.act i = some (.stubSend k a x, .none)) (hh : Home (r.hist i) l c a) :
    ∃ j, i < j ∧ (∀ v, i < v → v ≤ j → inCall k (r.hist v) = true) ∧
      (r.act j = some (.stubStep k, .accepted c x) ∨ r.Does j (· = .stubCancel k) ∨
      r.Does j (· = .dropStub k) ∨ ¬ Serving (r.hist j) l c ∨ r.Does j fun y => ∃ l', y = .accept l' a) := by
  classical
  have hex := answer_goes r hf hb h hh
  obtain ⟨hM1, hM2⟩ := Nat.find_spec hex
  have hmin := fun j (hj : j < Nat.find hex) => Nat.find_min hex hj
  generalize Nat.find hex = M at hM1 hM2 hmin
  refine ⟨M, hM1, ?_, hM2⟩
  have hn : ∀ j, i < j → j < M → ¬ (r.act j = some (.stubStep k, .accepted c x) ∨ r.Does j (· = .stubCancel k) ∨
      r.Does j (· = .dropStub k) ∨ ¬ Serving (r.hist j) l c ∨ r.Does j fun y => ∃ l', y = .accept l' a) :=
    fun j h1 h2 h3 => hmin j h2 ⟨h1, h3⟩
  have n1 : ∀ j, i < j → j < M → Serving (r.hist j) l c := fun j hj hjM => Classical.byContradiction fun h' =>
    hn j hj hjM (.inr (.inr (.inr (.inl h'))))
  have n2 : ∀ j, i < j → j ≤ M → Home (r.hist j) l c a := by
    intro j hj
    induction j, hj using Nat.le_induction with
    | base =>
      intro _
      rw [r.hist_succ, h]
      exact hh.append (by simp)
    | succ j hj ih =>
      intro hjM
      rw [r.hist_succ]
      refine (ih (by omega)).append fun l' o h' => ?_
      have h' := Option.mem_toList.mp h'
      exact hn j (by omega) (by omega) (.inr (.inr (.inr (.inr ⟨_, o, h', l', rfl⟩))))
  have n4 : ∀ j, i < j → j ≤ M → ((r.state j).stubs k).pc.call = some (a, x) := by
    intro j hj
    induction j, hj using Nat.le_induction with
    | base =>
      intro _
      rcases r.move i with ⟨h1, _⟩ | ⟨z, o, h1, h2⟩
      · rw [h] at h1; cases h1
      · rw [h] at h1
        cases h1
        generalize r.state (i + 1) = s' at *
        cases move_of_step h2
        simp [stubAt_apply, StubPc.call]
    | succ j hj ih =>
      intro hjM
      have ih := ih (by omega)
      rcases r.move j with ⟨_, h2⟩ | ⟨y, o, h1, h2⟩
      · rw [h2]; exact ih
      · obtain ⟨k1, k2, k3, k4, k5, k6, k7⟩ := home (r.exec j) (n2 j hj (by omega)) (n1 j hj (by omega))
        have hg := (good_hist (r.exec j)).1.fresh
        have hany : ∀ l', y ≠ .accept l' a := fun l' h' =>
          hn j hj (by omega) (.inr (.inr (.inr (.inr ⟨y, o, h1, l', h'⟩))))
        rcases homed_goes k5 hg ih h2 (fun h' => by
          subst h'
          have hst : Serving [(.stubStep k, o)] l c := by simp [Serving]
          have hal := (serving_step (move_of_step h2) hst k1 k2 k3 k4).2
          exact (k5.step (peers (r.exec j)) (move_of_step h2) hany (lis_strong hg k7) hal).2 k x rfl ih)
          with h4 | ⟨rfl, rfl⟩ | rfl | rfl
        · exact h4
        · exact absurd (.inl h1) (hn j hj (by omega))
        · exact absurd (.inr (.inl ⟨_, o, h1, rfl⟩)) (hn j hj (by omega))
        · exact absurd (.inr (.inr (.inl ⟨_, o, h1, rfl⟩))) (hn j hj (by omega))
  intro v h1 h2
  rw [← Bool.not_eq_false, ← idle_iff (r.exec v) k]
  intro h3
  have h4 := n4 v h1 h2
  rw [h3] at h4
  cases h4

/-- **C136.** A listener has accepted and registered a connection, as in C115. If no task and no call is passed
over, then whatever a stub sends to the address of this connection is put into the queue of this connection,
unless, while this call goes on, it is given up, the listener or the connection ends, or somebody connects from the
address anew. -/
theorem C136_answer (r : Run dg) (hf : r.Fair) (hb : r.Settles) {k i l c : Nat} {a : Addr} {x : Msg}
    (h : r.act i = some (.stubSend k a x, .none)) (hh : Home (r.hist i) l c a) :
    ∃ j, i < j ∧ (∀ v, i < v → v ≤ j → inCall k (r.hist v) = true) ∧
      (r.act j = some (.stubStep k, .accepted c x) ∨ r.Does j (· = .stubCancel k) ∨
      r.Does j (· = .dropStub k) ∨ ¬ Serving (r.hist j) l c ∨ r.Does j fun y => ∃ l', y = .accept l' a) :=
  answer_during r hf hb h hh

/-- A stub answers a peer that is connected: the answer is put into the queue of its connection. -/
example : ∃ (r : Run true) (i : Nat), r.Fair ∧ r.Settles ∧ r.act i = some (.stubSend 0 8 msgA, .none) ∧
    Home (r.hist i) 0 0 8 ∧ (∀ j, Serving (r.hist j) 0 0) ∧
    ∀ j, ¬ r.Does j (· = .stubCancel 0) ∧ ¬ r.Does j (· = .dropStub 0) := by
  obtain ⟨tr, s, e, h⟩ := exec_by (step := step true) (s := init) (liveActions.take 37)
    (fun tr s => halted true s && decide (tr[31]? = some (Action.stubSend 0 8 msgA, Obs.none) ∧
      tr.take 31 = (tr.take 31).take 7 ++ (Action.accept 0 8, Obs.opened 0 8) :: (Action.lisShare 0, Obs.none) ::
        (tr.take 31).drop (7 + 2)) &&
      (((tr.take 31).take 7 ++ (tr.take 31).drop (7 + 2)).all fun x =>
        match x.1 with | .accept _ b => b != 8 | _ => true) &&
      (((tr.take 31).take 7).all fun x => match x.1 with | .stubSend _ b _ => b != 8 | _ => true) &&
      (tr.all fun x => match x with
        | (.acceptNone _, _) => false
        | (.sent _ false, _) => false
        | (.stubCancel _, _) => false
        | (.dropStub _, _) => false
        | (_, .ended) => false
        | _ => true))
    (by decide +kernel)
  simp only [Bool.and_eq_true, decide_eq_true_iff] at h
  obtain ⟨⟨⟨⟨h1, h2, h3⟩, h4⟩, h5⟩, h6⟩ := h
  obtain ⟨r, r1, r2, -, -, r5⟩ := halted_fair e h1
  rw [← (r5 _ (Nat.le_refl _)).2] at h2
  obtain ⟨i, -, h8, h9⟩ := hist_at h2
  have pre : ∀ j, ∃ t, tr = r.hist j ++ t := fun j => by
    obtain ⟨t, h12, -⟩ := r.segment (Nat.le_max_left j tr.length)
    rw [(r5 _ (Nat.le_max_right ..)).2] at h12
    exact ⟨t, h12⟩
  have h6 := List.all_eq_true.mp h6
  have mem : ∀ j x, x ∈ r.hist j → x ∈ tr := fun j x hx => by
    obtain ⟨t, ht⟩ := pre j
    rw [ht]
    exact List.mem_append_left _ hx
  refine ⟨r, i, r1, r2, h8, ?_, fun j => ⟨?_, ?_, ?_, ?_, ?_⟩, fun j => ⟨?_, ?_⟩⟩
  · obtain ⟨t, ht⟩ := pre i
    have h10 : r.hist i = tr.take 31 := by rw [ht, ← h9, List.take_left]
    rw [h10]
    exact home_at 7 h3 h4 h5
  · exact fun h => Bool.noConfusion (h6 _ (mem j _ h))
  · exact fun o h => Bool.noConfusion (h6 _ (mem j _ h))
  · exact fun o h => Bool.noConfusion (h6 _ (mem j _ h))
  · exact fun h => Bool.noConfusion (h6 _ (mem j _ h))
  · exact fun o h => Bool.noConfusion (h6 _ (mem j _ h))
  · rintro ⟨y, o, h, rfl⟩
    exact Bool.noConfusion (h6 _ (mem (j + 1) (.stubCancel 0, o) (by rw [r.hist_succ, h]; simp)))
  · rintro ⟨y, o, h, rfl⟩
    exact Bool.noConfusion (h6 _ (mem (j + 1) (.dropStub 0, o) (by rw [r.hist_succ, h]; simp)))

end

/-! ### On a network -/

section
open Rt Rt.Net Spec Spec.Ep Spec.Net Someip
open Spec.Node (SendStep Mishap CutOff app socket)

variable {own : Addr → Bool} {r : Run own}

/-- What the endpoint at `n` does is something done on the network. -/
theorem net_ep_act {n : Addr} {t : Nat} {x : Rt.Ep.Action} {w : Rt.Ep.Obs}
    (h : (Node.epRun (nodeRun r n)).act t = some (x, w)) :
    ∃ o, r.act t = some ((n, .app x), o) ∧ o.ep = some w := by
  obtain ⟨⟨y, o⟩, h1, h2⟩ := Option.bind_eq_some_iff.mp h
  cases y with
  | app z =>
    obtain ⟨v, h3, h4⟩ := Option.map_eq_some_iff.mp h2
    cases h4
    exact ⟨o, nodeRun_act h1, h3⟩
  | _ => cases h2

theorem net_act_ep {n : Addr} {t : Nat} {x : Rt.Ep.Action} {o : Node.Obs} {w : Rt.Ep.Obs}
    (h : r.act t = some ((n, .app x), o)) (ho : o.ep = some w) :
    (Node.epRun (nodeRun r n)).act t = some (x, w) := by
  have h1 : (nodeRun r n).act t = some (.app x, o) := by
    show (r.act t).bind _ = _
    rw [h]
    simp
  show ((nodeRun r n).act t).bind _ = _
  rw [h1]
  show o.ep.map _ = _
  rw [ho]
  rfl

/-- While the call of `send_to` that stub `k` at `n` has begun at time `t` goes on, it is given up at time `u`, or
somebody connects from `a`. -/
def Spec.Net.Disturbed (r : Run own) (n : Addr) (t k : Nat) (a : Addr) (u : Nat) : Prop :=
  (∀ v, t < v → v ≤ u → inCall k (app (at_ n (r.hist v))) = true) ∧
  (r.Does u (At n (· = .app (.stubCancel k))) ∨ r.Does u (At n (· = .app (.dropStub k))) ∨
    r.Does u (At n fun y => ∃ l', y = .app (.accept l' a)))

/-- **C136.** A server answers a client that has connected to it: a stub at `n` sends a message to `a`, from where a
connection was accepted and registered, as in C115, and where a proxy for `n` and for the interface of the message
was made. If nobody is passed over at `n` and at `a`, the network carries everything from `n` to `a`, and the users
at `a` read from all handles, then the proxy returns the message, unless this call is given up, the listener or the
connection at `n` ends, somebody connects from `a` anew while the call goes on, the proxy is dropped or cut off from
its remote, the socket at `a` has failed or shows what became of the datagram. -/
theorem C136_reaches {a n : Addr} {k l c t p i : Nat} {id : InterfaceId} {x : Msg} {o : Node.Obs}
    (ha : own a = true) (hn : own n = true) (hf : Fair r n) (hb : Settles r n) (hfa : Fair r a) (hp : Polled r a)
    (hi : CallsEnd r a) (hba : Settles r a) (hw : Carries r n a)
    (h : r.act t = some ((n, .app (.stubSend k a x)), o)) (ho : o.ep = some .none)
    (hh : Home (app (at_ n (r.hist t))) l c a) (hk : Shown (app (at_ a (r.hist t))) (.proxying p i id n))
    (hl : 16 + x.payload.length ≤ 1400) (hm : Normal x) (hid : For x id) :
    ∃ u, t < u ∧ (¬ Serving (app (at_ n (r.hist u))) l c ∨
      Disturbed r n t k a u ∨
      (.failure, .none) ∈ socket (at_ a (r.hist u)) ∨
      Mishap n (frame x) (socket (at_ a (r.hist t))) (socket (at_ a (r.hist u))) ∨
      (.dropProxy p, .none) ∈ app (at_ a (r.hist u)) ∨ CutOff (at_ a (r.hist u)) p n ∨
      ∃ q, proxyGot p (app (at_ a (r.hist u))) = proxyGot p (app (at_ a (r.hist t))) ++ q ∧ x ∈ q) := by
  have hist : ∀ t, (Node.epRun (nodeRun r n)).hist t = app (at_ n (r.hist t)) := fun t => by
    rw [Node.epRun_hist, nodeRun_hist]
  obtain ⟨j, h1, h0, h2⟩ := C136_answer _ (Node.ep_fair (fair_node hf hn)) (Node.ep_settles (settles_node hb))
    (net_act_ep h ho) (by rw [hist]; exact hh)
  have lift : ∀ {P : Rt.Ep.Action → Prop}, (Node.epRun (nodeRun r n)).Does j P →
      r.Does j (At n fun y => ∃ x, y = .app x ∧ P x) := by
    rintro P ⟨y, w, h3, h4⟩
    obtain ⟨o', h5, -⟩ := net_ep_act h3
    exact ⟨_, o', h5, rfl, y, rfl, h4⟩
  simp only [hist] at h0
  rcases h2 with h2 | h2 | h2 | h2 | h2
  · obtain ⟨o', h3, h4⟩ := net_ep_act h2
    obtain ⟨e, he, -⟩ := r.segment (Nat.le_of_lt h1)
    have grow : ∃ e', app (at_ n (r.hist j)) = app (at_ n (r.hist t)) ++ e' :=
      ⟨app (at_ n e), by simp only [he, at_, app, List.filterMap_append]⟩
    have grow' : ∃ e', app (at_ a (r.hist j)) = app (at_ a (r.hist t)) ++ e' :=
      ⟨app (at_ a e), by simp only [he, at_, app, List.filterMap_append]⟩
    obtain ⟨e₁, g1⟩ := grow
    obtain ⟨e₂, g2⟩ := grow'
    have hc : Shown (app (at_ n (r.hist j))) (.opened c a) := by
      obtain ⟨t₁, t₂, t₃, h5, -⟩ := hh
      exact ⟨.accept l a, by rw [g1, h5]; simp⟩
    have hk' : Shown (app (at_ a (r.hist j))) (.proxying p i id n) := by
      obtain ⟨y, h5⟩ := hk
      exact ⟨y, by rw [g2]; exact List.mem_append_left _ h5⟩
    obtain ⟨u, h5, h6⟩ := C135_reply hn ha (hf.send c) hfa hp hi hba hw hc hk' h3 h4 hl hm hid
    refine ⟨u, by omega, ?_⟩
    rcases h6 with h6 | h6 | h6 | h6 | h6 | ⟨q, h6, h7⟩
    · refine .inl fun hs => ?_
      obtain ⟨-, -, s1, s2, s3⟩ := hs
      rcases h6 with ⟨y, h6⟩ | h6 | ⟨b, h6⟩
      · exact s1 y h6
      · exact s2 h6
      · exact s3 _ h6
    · exact .inr (.inr (.inl h6))
    · simp only [he, at_, socket, List.filterMap_append, List.flatMap_append] at h6
      exact .inr (.inr (.inr (.inl h6.since)))
    · exact .inr (.inr (.inr (.inr (.inl h6))))
    · exact .inr (.inr (.inr (.inr (.inr (.inl h6)))))
    · refine .inr (.inr (.inr (.inr (.inr (.inr ⟨proxyGot p e₂ ++ q, ?_, ?_⟩)))))
      · rw [h6, g2, proxyGot, proxyGot, proxyGot, List.filterMap_append, List.append_assoc]
      · exact List.mem_append_right _ h7
  · obtain ⟨y, o', h3, h4, z, h5, rfl⟩ := lift h2
    exact ⟨j, h1, .inr (.inl ⟨h0, .inl ⟨y, o', h3, h4, h5⟩⟩)⟩
  · obtain ⟨y, o', h3, h4, z, h5, rfl⟩ := lift h2
    exact ⟨j, h1, .inr (.inl ⟨h0, .inr (.inl ⟨y, o', h3, h4, h5⟩)⟩)⟩
  · rw [hist] at h2
    exact ⟨j, h1, .inl h2⟩
  · obtain ⟨y, o', h3, h4, z, h5, l', rfl⟩ := lift h2
    exact ⟨j, h1, .inr (.inl ⟨h0, .inr (.inr ⟨y, o', h3, h4, l', h5⟩)⟩)⟩

/-- The conversation of C133: the client gets the answer. -/
example : ∃ (r : Run two) (t : Nat) (o : Node.Obs), (∀ n, two n = true → Fair r n ∧ Settles r n ∧ Polled r n ∧
    CallsEnd r n) ∧ Carries r 6 5 ∧ r.act t = some ((6, .app (.stubSend 0 5 answerA)), o) ∧ o.ep = some .none ∧
    Home (app (at_ 6 (r.hist t))) 0 0 5 ∧ Shown (app (at_ 5 (r.hist t))) (.proxying 0 0 ⟨1, 1⟩ 6) ∧
    Normal answerA ∧ For answerA ⟨1, 1⟩ ∧ proxyGot 0 (app (at_ 5 (r.hist t))) = [] ∧
    ∃ u, proxyGot 0 (app (at_ 5 (r.hist u))) = [answerA] := by
  obtain ⟨tr, s, e, h⟩ := exec_by (step := step two) (s := init) talk
    (fun (tr : Spec.Net.Trace) s => calmNode (s.nodes 5) && calmNode (s.nodes 6) &&
      allArrive 6 5 tr && decide (
      (∀ n ∈ ([5, 6] : List Addr), (∀ k, k < (s.nodes n).ep.stubCount → ((s.nodes n).ep.stubs k).pc = .idle)) ∧
      tr[30]? = some ((6, Node.Action.app (.stubSend 0 5 answerA)), (⟨some .none, [], []⟩ : Node.Obs)) ∧
      (app (at_ 5 (tr.take 30))).any (fun x => decide (x.2 = .proxying 0 0 ⟨1, 1⟩ 6)) = true ∧
      proxyGot 0 (app (at_ 5 (tr.take 30))) = [] ∧ proxyGot 0 (app (at_ 5 tr)) = [answerA]) && decide (
      app (at_ 6 (tr.take 30)) = (app (at_ 6 (tr.take 30))).take 7 ++ (Rt.Ep.Action.accept 0 5, Rt.Ep.Obs.opened 0 5) ::
        (Rt.Ep.Action.lisShare 0, Rt.Ep.Obs.none) :: (app (at_ 6 (tr.take 30))).drop (7 + 2)) &&
      (((app (at_ 6 (tr.take 30))).take 7 ++ (app (at_ 6 (tr.take 30))).drop (7 + 2)).all fun x =>
        match x.1 with | .accept _ b => b != 5 | _ => true) &&
      (((app (at_ 6 (tr.take 30))).take 7).all fun x => match x.1 with | .stubSend _ b _ => b != 5 | _ => true))
    (by decide +kernel)
  simp only [Bool.and_eq_true, decide_eq_true_eq] at h
  obtain ⟨⟨⟨⟨⟨⟨g1, g2⟩, g3⟩, g4, g5, g6, g7, g8⟩, g9⟩, g10⟩, g11⟩ := h
  have hg := fun n => (Rt.Ep.good_hist (Node.parts ((each e).1 n)).1).1
  have k5 := calm_still (hg 5) g1
  have k6 := calm_still (hg 6) g2
  have hown : ∀ n, two n = true → n = 5 ∨ n = 6 := fun n hn => by
    simpa only [two, Bool.or_eq_true, decide_eq_true_eq] using hn
  obtain ⟨r, r1, r2, r4, r3⟩ := udp_net_rests e (fun n hn => by
    rcases hown n hn with rfl | rfl
    · exact k5.1
    · exact k6.1)
  obtain ⟨t, h7, h8⟩ := rest_act r3 g5
  refine ⟨r, t, _, fun n hn => ⟨r1 n hn, r2 n, ⟨fun k => r4 n hn _ ?_, fun p => r4 n hn _ ?_⟩,
    fun k N => ⟨max N tr.length, Nat.le_max_left .., ?_⟩⟩, rest_carries r3 g3, h8, rfl, ?_, ?_,
    by unfold Normal; decide, by unfold For; decide, by rw [h7]; exact g7, tr.length,
    by rw [(r3 _ (Nat.le_refl _)).2]; exact g8⟩
  · rintro x rfl
    rcases hown n hn with rfl | rfl
    · exact k5.2.1 k
    · exact k6.2.1 k
  · rintro x rfl
    rcases hown n hn with rfl | rfl
    · exact k5.2.2 p
    · exact k6.2.2 p
  · rw [(r3 _ (Nat.le_max_right ..)).2]
    refine (Rt.Ep.idle_iff (Node.parts ((each e).1 n)).1 k).mp ?_
    rcases Nat.lt_or_ge k (s.nodes n).ep.stubCount with h | h
    · exact g4 n (by rcases hown n hn with rfl | rfl <;> simp) k h
    · rw [(hg n).fresh.stubs k h]
  · rw [h7]
    exact home_at 7 g9 g10 g11
  · rw [h7]
    obtain ⟨⟨y, w⟩, h9, h10⟩ := List.any_eq_true.mp g6
    simp only [decide_eq_true_eq] at h10
    exact ⟨y, by rw [← h10]; exact h9⟩

end

section
open Rt Rt.TcpNet Spec Spec.Ep Spec.TcpNet Someip
open Spec.TcpNode (app Plain Whole Broke)
open Spec.Node (reads)

variable {own : Addr → Bool} {r : Run own}

/-- At time `t` the endpoint at `n` does something of the given kind. -/
def Spec.TcpNet.Doing (r : Run own) (n : Addr) (t : Nat) (P : Rt.Ep.Action → Prop) : Prop :=
  ∃ y j o x w, r.act t = some ((n, y, j), o) ∧ o.ep = some (x, w) ∧ P x

theorem tcp_ep_act {n : Addr} {t : Nat} {x : Rt.Ep.Action} {w : Rt.Ep.Obs}
    (h : (TcpNode.epRun (nodeRun r n)).act t = some (x, w)) :
    ∃ y j o, r.act t = some ((n, y, j), o) ∧ o.ep = some (x, w) := by
  obtain ⟨⟨y, o⟩, h1, h2⟩ := Option.bind_eq_some_iff.mp h
  obtain ⟨⟨⟨n', y', j⟩, o'⟩, h3, h4⟩ := Option.bind_eq_some_iff.mp h1
  split at h4
  · rename_i h5
    subst h5
    simp only [Option.some.injEq, Prod.mk.injEq] at h4
    obtain ⟨rfl, rfl⟩ := h4
    exact ⟨_, _, _, h3, h2⟩
  · cases h4

theorem tcp_act_ep {n : Addr} {t j : Nat} {y : TcpNode.Action} {x : Rt.Ep.Action} {o : TcpNode.Obs} {w : Rt.Ep.Obs}
    (h : r.act t = some ((n, y, j), o)) (ho : o.ep = some (x, w)) :
    (TcpNode.epRun (nodeRun r n)).act t = some (x, w) := by
  have h1 : (nodeRun r n).act t = some (y, o) := by
    show (r.act t).bind _ = _
    rw [h]
    simp
  show ((nodeRun r n).act t).bind _ = _
  rw [h1]
  exact ho

/-- While the call of `send_to` that stub `k` at `n` has begun at time `t` goes on, it is given up at time `u`, or
somebody connects from `a`. -/
def Spec.TcpNet.Disturbed (r : Run own) (n : Addr) (t k : Nat) (a : Addr) (u : Nat) : Prop :=
  (∀ v, t < v → v ≤ u → inCall k (app (at_ n (r.hist v))) = true) ∧
  (Doing r n u (· = .stubCancel k) ∨ Doing r n u (· = .dropStub k) ∨ Doing r n u fun y => ∃ l', y = .accept l' a)

/-- What `C136_tcp_partial` says, about the two ends of the model's connections. -/
theorem tcp_answer (hf : Fair r) {a n : Addr} (hn : own n = true) (ha : own a = true) (hb : Settles r n)
    (hp : Polled r a) (hi : CallsEnd r a) (hba : Settles r a) :
    ∀ t t' c' c, (r.state t').peer a c' = some (n, c) →
      (∀ u, ∀ m ∈ accepted c (app (at_ n (r.hist u))), Plain m) →
      (∀ u, ∀ b ∈ reads c' (app (at_ a (r.hist u))), Whole b) →
      ∀ p i id, Shown (app (at_ a (r.hist t))) (.proxying p i id n) →
        ∀ k l x y j o, r.act t = some ((n, y, j), o) → o.ep = some (.stubSend k a x, .none) → For x id →
          Home (app (at_ n (r.hist t))) l c a →
          ∃ u, t < u ∧ (¬ Serving (app (at_ n (r.hist u))) l c ∨ Disturbed r n t k a u ∨
            Useless a c' n c (r.hist u) ∨ (.dropProxy p, .none) ∈ app (at_ a (r.hist u)) ∨
            Spec.TcpNode.CutOff p n (at_ a (r.hist u)) ∨
            ∃ q, proxyGot p (app (at_ a (r.hist u))) = proxyGot p (app (at_ a (r.hist t))) ++ q ∧ x ∈ q) := by
  have hr := tcp_reply hf (tcp_net_polled ha hp hi) hba
  intro t t' c' c h1 h2 h3 p i id h4 k l x y j o h5 h6 h7 hh
  have hist : ∀ t, (TcpNode.epRun (nodeRun r n)).hist t = app (at_ n (r.hist t)) := fun t => by
    rw [TcpNode.epRun_hist, nodeRun_hist]
  obtain ⟨v, g1, g0, g2⟩ := C136_answer _ (TcpNode.ep_fair (fair_node hf hn)) (TcpNode.ep_settles (settles_node hb))
    (tcp_act_ep h5 h6) (by rw [hist]; exact hh)
  have lift : ∀ {P : Rt.Ep.Action → Prop}, (TcpNode.epRun (nodeRun r n)).Does v P → Doing r n v P := by
    rintro P ⟨y, w, g3, g4⟩
    obtain ⟨y', j', o', g5, g6⟩ := tcp_ep_act g3
    exact ⟨y', j', o', y, w, g5, g6, g4⟩
  simp only [hist] at g0
  rcases g2 with g2 | g2 | g2 | g2 | g2
  · obtain ⟨y', j', o', g3, g4⟩ := tcp_ep_act g2
    obtain ⟨e, he, -⟩ := r.segment (Nat.le_of_lt g1)
    have grow : app (at_ a (r.hist v)) = app (at_ a (r.hist t)) ++ app (at_ a e) := by
      rw [he, at_append, tcp_app_append]
    have h4' : Shown (app (at_ a (r.hist v))) (.proxying p i id n) := by
      obtain ⟨z, h8⟩ := h4
      exact ⟨z, by rw [grow]; exact List.mem_append_left _ h8⟩
    obtain ⟨u, g5, g6⟩ := hr v t' c' n c h1 h2 h3 p i id (hp.proxies p) h4' y' _ j' o' x g3 g4 h7
    refine ⟨u, by omega, ?_⟩
    rcases g6 with g6 | g6 | g6 | ⟨q, g6, g7⟩
    · exact .inr (.inr (.inl g6))
    · exact .inr (.inr (.inr (.inl g6)))
    · exact .inr (.inr (.inr (.inr (.inl g6))))
    · refine .inr (.inr (.inr (.inr (.inr ⟨proxyGot p (app (at_ a e)) ++ q, ?_, ?_⟩))))
      · rw [g6, grow, proxyGot, proxyGot, proxyGot, List.filterMap_append, List.append_assoc]
      · exact List.mem_append_right _ g7
  · exact ⟨v, g1, .inr (.inl ⟨g0, .inl (lift g2)⟩)⟩
  · exact ⟨v, g1, .inr (.inl ⟨g0, .inr (.inl (lift g2))⟩)⟩
  · rw [hist] at g2
    exact ⟨v, g1, .inl g2⟩
  · exact ⟨v, g1, .inr (.inl ⟨g0, .inr (.inr (lift g2))⟩)⟩

/-- **C136**, the part about programs connected by TCP that holds. A stub at `n` sends a message to `a`, from where
a connection was accepted and registered, the other end of which is or will be connection `c'` of the client. If
nobody is passed over, the users at `a` read from all handles, every read of the client on this connection ends
between messages, and the messages sent on it can be expressed in the format, then the proxy at `a` returns the
message, unless the call is given up, the listener or the connection at `n` ends, somebody connects from `a` anew
while the call goes on, the connection breaks, the proxy is dropped, or the operating system at `a` has reported an
error on a connection to `n`, the only one on which the proxy has sent, if any. What is missing: reads that end inside
a message (`C128_false`). -/
theorem C136_tcp_partial (hf : Fair r) {a n : Addr} (hn : own n = true) (ha : own a = true) (hb : Settles r n)
    (hp : Polled r a) (hi : CallsEnd r a) (hba : Settles r a) :
    ∃ pair : Nat → Addr → Nat → Option (Addr × Nat), Coupled r pair ∧
      ∀ t t' c' c, pair t' a c' = some (n, c) →
        (∀ u, ∀ m ∈ accepted c (app (at_ n (r.hist u))), Plain m) →
        (∀ u, ∀ b ∈ reads c' (app (at_ a (r.hist u))), Whole b) →
        ∀ p i id, Shown (app (at_ a (r.hist t))) (.proxying p i id n) →
          ∀ k l x y j o, r.act t = some ((n, y, j), o) → o.ep = some (.stubSend k a x, .none) → For x id →
            Home (app (at_ n (r.hist t))) l c a →
            ∃ u, t < u ∧ (¬ Serving (app (at_ n (r.hist u))) l c ∨ Disturbed r n t k a u ∨
              Useless a c' n c (r.hist u) ∨ (.dropProxy p, .none) ∈ app (at_ a (r.hist u)) ∨
              Spec.TcpNode.CutOff p n (at_ a (r.hist u)) ∨
              ∃ q, proxyGot p (app (at_ a (r.hist u))) = proxyGot p (app (at_ a (r.hist t))) ++ q ∧ x ∈ q) :=
  ⟨fun t => (r.state t).peer, run_coupled r, tcp_answer hf hn ha hb hp hi hba⟩

/-- The conversation of C134: the client gets the answer. -/
example : ∃ (r : Run Spec.Net.two) (t : Nat) (o : TcpNode.Obs), Fair r ∧
    (∀ n, Spec.Net.two n = true → Settles r n ∧ Polled r n ∧ CallsEnd r n) ∧
    (∃ t l, (.accept l 5, .opened 0 5) ∈ app (at_ 6 (r.hist t))) ∧ (∀ t, ¬ Useless 5 0 6 0 (r.hist t)) ∧
    (∀ u, ∀ m ∈ accepted 0 (app (at_ 6 (r.hist u))), Plain m) ∧
    (∀ u, ∀ b ∈ reads 0 (app (at_ 5 (r.hist u))), Whole b) ∧
    Shown (app (at_ 5 (r.hist t))) (.proxying 0 0 ⟨1, 1⟩ 6) ∧
    r.act t = some ((6, .app (.stubSend 0 5 Spec.Net.answerA), 0), o) ∧
    o.ep = some (.stubSend 0 5 Spec.Net.answerA, .none) ∧ For Spec.Net.answerA ⟨1, 1⟩ ∧
    Home (app (at_ 6 (r.hist t))) 0 0 5 ∧ ∃ u, proxyGot 0 (app (at_ 5 (r.hist u))) = [Spec.Net.answerA] := by
  obtain ⟨r, h1, h2, h3, h4, h5, h6, h7, -, -, h8, -, -, ⟨t, o, h9, h10, h11, h12, -⟩, u, -, h13⟩ := tcp_talk
  exact ⟨r, t, o, h1, fun n hn => ⟨(h2 n hn).2, ⟨(h7 n hn).1, (h7 n hn).2.1⟩, (h7 n hn).2.2⟩, h3,
    fun t => (h4 t).2, fun u => h5 6 rfl u 0, fun u => h6 5 rfl u, h9, h10, h11, h8.2, h12, u, h13⟩

end

end Rsomeip
