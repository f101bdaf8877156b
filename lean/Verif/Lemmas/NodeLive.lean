import Verif.Lemmas.NodeIdle
import Verif.Lemmas.NodeHist

/-! # Who reads from the channels of a UDP socket -/

namespace Rsomeip.Rt

namespace Udp

section
variable {s s' : State} {a : Action} {o : Obs}

/-- A receiver is handed out by `connect` or `accept`. -/
theorem Move.held_new (m : Move s a o s') {d : Nat} (h : (s'.chans d).held = true) :
    (s.chans d).held = true ∨ ∃ p, o = .connection d p := by
  cases m
  case connect b _ =>
    by_cases hd : d = s.chanCount
    · exact .inr ⟨b, by rw [hd]⟩
    · simp only [upd_ne _ _ hd] at h; exact .inl h
  case accept l c b q _ _ _ =>
    by_cases hd : d = c
    · exact .inr ⟨b, by rw [hd]⟩
    · simp only [upd_ne _ _ hd] at h; exact .inl h
  all_goals first | exact .inl h | grind [upd, Chan.push_held]

/-- Channels that nobody was given yet wait in the queue of a listener. -/
def Pending (s : State) : Prop :=
  ∀ d, (s.chans d).rx = true → (s.chans d).held = false →
    ∃ l, (d, (s.chans d).peer) ∈ (s.backlogs l).queue

theorem Pending.step (h : Pending s) (t : Tables s) (m : Move s a o s') : Pending s' := by
  intro d h1 h2
  have h3 := h d
  have h4 := t.high d
  have hp := Chan.push_peer
  have hr := Chan.push_rx
  have hh := Chan.push_held
  clear h
  cases m
  case enqueue b p l _ hl hrx hlen =>
    by_cases hd : d = s.chanCount
    · subst hd
      exact ⟨l, by simp [upd]⟩
    · simp only [upd_ne _ _ hd] at h1 h2 ⊢
      obtain ⟨j, hj⟩ := h3 h1 h2
      refine ⟨j, ?_⟩
      by_cases hjl : j = l
      · subst hjl; simp [upd, hj]
      · simp [upd, hjl, hj]
  case listen n _ _ _ =>
    obtain ⟨j, hj⟩ := h3 h1 h2
    refine ⟨j, ?_⟩
    by_cases hjl : j = s.backlogCount
    · subst hjl
      have := (t.backlogs _ (Nat.le_refl _)).2
      rw [this] at hj; cases hj
    · simp [upd, hjl, hj]
  case accept l c b q hl hrx hq =>
    by_cases hd : d = c
    · subst hd; simp [upd] at h2
    · simp only [upd_ne _ _ hd] at h1 h2 ⊢
      obtain ⟨j, hj⟩ := h3 h1 h2
      refine ⟨j, ?_⟩
      by_cases hjl : j = l
      · subst hjl
        rw [hq] at hj
        rcases List.mem_cons.mp hj with hj | hj
        · cases hj; exact absurd rfl hd
        · simp [upd, hj]
      · simp [upd, hjl, hj]
  case dropListener l hl hrx =>
    dsimp only at h1 h2 ⊢
    split at h1
    · cases h1
    · rename_i hn
      rw [if_neg hn] at h2 ⊢
      obtain ⟨j, hj⟩ := h3 h1 h2
      refine ⟨j, ?_⟩
      by_cases hjl : j = l
      · subst hjl
        exact absurd (List.any_eq_true.mpr ⟨_, hj, decide_eq_true rfl⟩) hn
      · simp [upd, hjl, hj]
  all_goals first | exact h3 h1 h2 | skip
  all_goals
    obtain ⟨j, hj⟩ := h3 (by grind [upd]) (by grind [upd])
    exact ⟨j, by grind [upd]⟩

theorem pending {tr : Spec.Udp.Trace} (e : Exec step init tr s) : Pending s := by
  induction e with
  | nil => intro d h; simp [Udp.init] at h
  | snoc e hs ih => exact ih.step (exec_inv e).1 (move_of_step hs)

/-- A listener that was dropped has nothing queued. -/
theorem queue_open {tr : Spec.Udp.Trace} (e : Exec step init tr s) (l : Nat)
    (h : (s.backlogs l).queue ≠ []) : (s.backlogs l).rx = true := by
  induction e with
  | nil => simp [Udp.init] at h
  | snoc e hs ih =>
    have m := move_of_step hs
    clear hs e
    cases m <;> first | exact ih h | grind [upd]

/-- A listener is made by `listen`. -/
theorem Move.count_backlog (m : Move s a o s') : s'.backlogCount = s.backlogCount ∨
    (∃ n, a = .listen n) ∧ o = .listening s.backlogCount ∧ s'.backlogCount = s.backlogCount + 1 := by
  cases m <;> first | exact .inl rfl | exact .inr ⟨⟨_, rfl⟩, rfl, rfl⟩

end

end Udp

namespace Node

open Spec.Node

theorem opened_new {dg : Bool} {s e : Ep.State} {x : Ep.Action} {o : Ep.Obs} {c : Nat} {a : Addr}
    (m : Ep.Move dg s x o e) (h : o = .opened c a) : c = s.connCount ∧ e.connCount = s.connCount + 1 := by
  cases m <;> first | (cases h; exact ⟨rfl, rfl⟩) | (cases h; done) | (split at h <;> cases h)

/-- Every receiver that was handed out belongs to a connection of the endpoint. -/
def Owned (s : State) : Prop :=
  ∀ d, (s.udp.chans d).held = true → ∃ c, c < s.ep.connCount ∧ s.chan c = d

theorem owned {tr : Trace} {s : State} (e : Exec step init tr s) : Owned s := by
  induction e with
  | nil => intro d h; simp [Node.init, Udp.init] at h
  | @snoc tr s s' a o e hs ih =>
    intro d hd
    cases move_of_step hs with
    | net _ u v w ha hn hdd hu =>
      rcases (Udp.move_of_step hu).held_new hd with h | ⟨p, rfl⟩
      · exact ih d h
      · exfalso
        have m := Udp.move_of_step hu
        rcases hn with rfl | rfl | ⟨b, q, rfl⟩ <;> cases m
    | app x e' o' _ us out he hc =>
      have hm := Ep.move_of_step he
      have hcount : s.ep.connCount ≤ e'.connCount := by cases hm <;> simp
      have old : (s.udp.chans d).held = true → ∃ c, c < e'.connCount ∧ s.chan c = d := fun h => by
        obtain ⟨c, h1, h2⟩ := ih d h
        exact ⟨c, Nat.lt_of_lt_of_le h1 hcount, h2⟩
      cases hc with
      | connect c a v d' b hx ho hu =>
        obtain ⟨rfl, hn⟩ := opened_new hm ho
        rcases (Udp.move_of_step hu).held_new hd with h | ⟨p, h⟩
        · obtain ⟨j, h1, h2⟩ := ih d h
          exact ⟨j, Nat.lt_of_lt_of_le h1 hcount, by
            show upd s.chan s.ep.connCount d' j = d
            rw [upd_ne _ _ (Nat.ne_of_lt h1), h2]⟩
        · cases h
          exact ⟨s.ep.connCount, by show _ < e'.connCount; omega, upd_same ..⟩
      | accept l a v d' hx hu =>
        subst hx
        have hn : e'.connCount = s.ep.connCount + 1 := by
          generalize hy : Ep.Action.accept l a = y at hm
          cases hm <;> cases hy
          rfl
        rcases (Udp.move_of_step hu).held_new hd with h | ⟨p, h⟩
        · obtain ⟨j, h1, h2⟩ := ih d h
          exact ⟨j, Nat.lt_of_lt_of_le h1 hcount, by
            show upd s.chan s.ep.connCount d' j = d
            rw [upd_ne _ _ (Nat.ne_of_lt h1), h2]⟩
        · cases h
          exact ⟨s.ep.connCount, by show _ < e'.connCount; omega, upd_same ..⟩
      | close v w _ _ hu | listen v d' _ _ _ _ hu | stop _ v w _ _ hu | drop _ v w _ _ hu
        | sendEnd _ _ _ v w _ _ _ _ hu =>
        rcases (Udp.move_of_step hu).held_new hd with h | ⟨p, h⟩
        · exact old h
        · first
            | (cases h; done)
            | (subst h; cases Udp.move_of_step hu; done)
      | recv c r v w _ hr _ hu =>
        rcases (Udp.move_of_step hu).held_new hd with h | ⟨p, h⟩
        · exact old h
        · subst h; cases hr
      | recvEnd c r v v' w w' _ hr _ hu hu' =>
        rcases (Udp.move_of_step hu').held_new hd with h | ⟨p, h⟩
        · rcases (Udp.move_of_step hu).held_new h with h | ⟨p, h⟩
          · exact old h
          · subst h; cases hr
        · subst h; cases Udp.move_of_step hu'
      | acceptNone l v v' w _ hu hu' =>
        rcases (Udp.move_of_step hu').held_new hd with h | ⟨p, h⟩
        · rcases (Udp.move_of_step hu).held_new h with h | ⟨p, h⟩
          · exact old h
          · cases h
        · subst h; cases Udp.move_of_step hu'
      | send => exact old hd
      | still => exact old hd

/-- Every listener of the socket belongs to a listener of the endpoint. -/
theorem owned_backlog {tr : Trace} {s : State} (e : Exec step init tr s) :
    ∀ l, l < s.udp.backlogCount → ∃ j, j < s.ep.lisCount ∧ s.backlog j = l := by
  induction e with
  | nil => intro l h; simp [Node.init, Udp.init] at h
  | @snoc tr s s' a o e hs ih =>
    intro l hl
    cases move_of_step hs with
    | net _ u v w ha hn hdd hu =>
      rcases (Udp.move_of_step hu).count_backlog with h | ⟨⟨n, rfl⟩, -⟩
      · rw [show s.udp.backlogCount = v.backlogCount from h.symm] at ih
        exact ih l hl
      · rcases hn with hn | hn | ⟨b, q, hn⟩ <;> cases hn
    | app x e' o' _ us out he hc =>
      have hcount : s.ep.lisCount ≤ e'.lisCount := by
        have := (Ep.move_of_step he).listens
        omega
      have old : l < s.udp.backlogCount → ∃ j, j < e'.lisCount ∧ s.backlog j = l := fun h => by
        obtain ⟨c, h1, h2⟩ := ih l h
        exact ⟨c, Nat.lt_of_lt_of_le h1 hcount, h2⟩
      cases hc with
      | listen v d' hx ho hn hne hu =>
        have hj : e'.lisCount = s.ep.lisCount + 1 := by
          rcases (Ep.move_of_step he).listens with h | h
          · exact h.2.2.1
          · exact absurd h.1 hne
        rcases (Udp.move_of_step hu).count_backlog with h | ⟨-, hd, h⟩
        · have := (Udp.move_of_step hu)
          generalize hy : Udp.Action.listen 8 = y at this
          generalize hw : Udp.Obs.listening d' = w at this
          cases this <;> first | (cases hy; done) | (cases hw; done) | (simp at h; done)
        · cases hd
          by_cases hll : l = s.udp.backlogCount
          · subst hll
            exact ⟨s.ep.lisCount, by show _ < e'.lisCount; omega, upd_same ..⟩
          · have h1 : l < v.backlogCount := hl
            obtain ⟨j, h2, h3⟩ := ih l (by omega)
            exact ⟨j, Nat.lt_of_lt_of_le h2 hcount, by
              show upd s.backlog s.ep.lisCount _ j = l
              rw [upd_ne _ _ (Nat.ne_of_lt h2), h3]⟩
      | connect c a v d' b hx ho hu | accept _ a v d' hx hu
        | close v w _ _ hu | stop _ v w _ _ hu | drop _ v w _ _ hu
        | sendEnd _ _ _ v w _ _ _ _ hu | recv c r v w _ hr _ hu =>
        rcases (Udp.move_of_step hu).count_backlog with h | ⟨⟨n, h⟩, -⟩
        · exact old (h ▸ hl)
        · cases h
      | recvEnd c r v v' w w' _ hr _ hu hu' =>
        rcases (Udp.move_of_step hu').count_backlog with h | ⟨⟨n, h⟩, -⟩
        · rcases (Udp.move_of_step hu).count_backlog with h' | ⟨⟨n, h'⟩, -⟩
          · exact old (h' ▸ h ▸ hl)
          · cases h'
        · cases h
      | acceptNone l v v' w _ hu hu' =>
        rcases (Udp.move_of_step hu').count_backlog with h | ⟨⟨n, h⟩, -⟩
        · rcases (Udp.move_of_step hu).count_backlog with h' | ⟨⟨n, h'⟩, -⟩
          · exact old (h' ▸ h ▸ hl)
          · cases h'
        · cases h
      | send => exact old hl
      | still => exact old hl

end Node

end Rsomeip.Rt
