import Verif.Lemmas.UdpHist
import Verif.Props.Rt.Udp

/-! # C102 and C103 for UDP sockets: datagrams are dealt with in a bounded number of steps, and the
queues of connections are bounded -/

namespace Rsomeip

open Rt Rt.Udp Spec.Udp

/-- How many steps the receiving task makes after reading a datagram, in a history. -/
def Spec.Udp.taskSteps (t : Trace) : Nat := t.countP fun e => e.1 == .task

theorem taskSteps_snoc (t : Trace) (a : Action) (o : Obs) :
    taskSteps (t ++ [(a, o)]) = taskSteps t + if a = .task then 1 else 0 := by
  rw [taskSteps, List.countP_append]
  simp [List.countP_cons, taskSteps]

/-- The steps the task still makes, at most, until a datagram is dealt with. -/
def Rt.Udp.Pc.left : Pc → Nat
  | .idle => 0
  | .stopped => 0
  | .lookup .. => 5
  | .found .. => 4
  | .stale .. => 3
  | .admit .. => 2
  | .queued .. => 1
  | .filled .. => 0

/-- **C102.** The receiving task needs five steps at most to put a datagram into the queue of a
connection or to throw it away, whatever the users of the socket do in between, whether or not they
read. -/
theorem C102_datagram {tr t : Trace} {s s' : State} (e : Exec step init tr s) (e' : Exec step s t s')
    (h : 5 ≤ taskSteps t) : arrived tr <+: (fates (tr ++ t)).map fun e => (e.1, e.2.1) := by
  suffices key : arrived tr <+: ((fates (tr ++ t)).map fun e => (e.1, e.2.1)) ∨
      s'.pc.inflight ≠ [] ∧ taskSteps t + s'.pc.left ≤ 5 by
    rcases key with h1 | ⟨h1, h2⟩
    · exact h1
    · have : s'.pc.left ≠ 0 := by cases hp : s'.pc <;> simp_all [Pc.left, Pc.inflight]
      omega
  clear h
  induction e' with
  | nil =>
    have h1 := (exec_inv e).2.1.fate
    by_cases h2 : s.pc.inflight = []
    · left
      rw [List.append_nil, ← h1, h2, List.append_nil]
      exact List.prefix_rfl
    · right
      refine ⟨h2, ?_⟩
      cases s.pc <;> simp [Pc.left, taskSteps]
  | @snoc t s₁ s₂ a o e₁ hs ih =>
    have h0 : ((fates (tr ++ t)).map fun e => (e.1, e.2.1)) <+:
        (fates (tr ++ (t ++ [(a, o)]))).map fun e => (e.1, e.2.1) := by
      rw [← List.append_assoc, fates_snoc]
      exact (List.prefix_append ..).map _
    rcases ih with h1 | ⟨h1, h2⟩
    · exact .inl (h1.trans h0)
    · by_cases h3 : s₂.pc.inflight = []
      · left
        have h4 := (exec_inv (e.append (e₁.snoc hs))).2.1.fate
        rw [h3, List.append_nil] at h4
        rw [h4, arrived, arrived, List.filterMap_append]
        exact List.prefix_append ..
      · right
        refine ⟨h3, ?_⟩
        rw [taskSteps_snoc]
        cases move_of_step hs <;> simp_all [Pc.left, Pc.inflight] <;> omega

/-- No queue is longer than its channel is. -/
theorem queue_le {tr : Trace} {s : State} (e : Exec step init tr s) (c : Nat) :
    (s.chans c).queue.length ≤ 32 ∧ (s.chans c).cap ≤ 32 := by
  induction e with
  | nil => simp [Udp.init]
  | snoc _ hs ih => cases move_of_step hs <;> first | exact ih | grind [upd, Chan.push]

/-- **C103.** At most 32 packets wait for a connection: as long as the receiving task makes no step,
the connection returns no more. -/
theorem C103_packets {tr t : Trace} {s s' : State} (e : Exec step init tr s) (e' : Exec step s t s')
    (h : taskSteps t = 0) (c : Nat) : (got c t).length ≤ 32 := by
  suffices key : (got c t).length + (s'.chans c).queue.length ≤ 32 by omega
  induction e' with
  | nil =>
    have := queue_le e c
    simp [got, seen]
    omega
  | @snoc t s₁ s₂ a o e₁ hs ih =>
    rw [taskSteps_snoc] at h
    have ha : a ≠ .task := fun ha => by simp [ha] at h
    have h1 := ih (by omega)
    have h2 : got c (t ++ [(a, o)]) = got c t ++ got c [(a, o)] := by
      simp only [got, seen, List.flatMap_append, List.filterMap_append]
    rw [h2, List.length_append]
    clear h2 ih
    have h2 : ∀ n, (List.replicate n (none : Option Bytes)).filterMap id = [] := by simp
    cases move_of_step hs
    case lagged d _ _ _ _ =>
      by_cases hd : d = c
      · subst hd
        simpa [got, seen, h2, upd] using h1
      · simpa [got, seen, hd, upd, Ne.symm hd] using h1
    case packet d p q _ _ _ _ hq =>
      by_cases hd : d = c
      · subst hd
        rw [hq] at h1
        simp [got, seen, upd] at h1 ⊢
        omega
      · simpa [got, seen, hd, upd, Ne.symm hd] using h1
    all_goals first
      | exact absurd rfl ha
      | exact h1
      | (simp only [got, seen, List.flatMap_cons, List.flatMap_nil, List.append_nil,
          List.filterMap_nil, List.length_nil, Nat.add_zero] at h1 ⊢
         grind [upd])

/-- Five steps: the receiver of the known connection was dropped, and a new connection is made. -/
example : ∃ tr s t s', Exec step init tr s ∧ Exec step s t s' ∧ arrived tr = [(7, [1])] ∧
    fates tr = [] ∧ 5 ≤ taskSteps t ∧ fates (tr ++ t) = [(7, [1], some 1)] := by
  obtain ⟨tr, s', e, h⟩ := exec_by (step := step) (s := init)
    [.listen 1, .connect 7, .dropReceiver 0, .datagram 7 [1], .task, .task, .task, .task, .task]
    (fun tr _ => decide (arrived (tr.take 4) = [(7, [1])] ∧ fates (tr.take 4) = [] ∧
      5 ≤ taskSteps (tr.drop 4) ∧ fates (tr.take 4 ++ tr.drop 4) = [(7, [1], some 1)]))
    (by decide +kernel)
  have e₀ := e
  rw [← List.take_append_drop 4 tr] at e₀
  obtain ⟨s, e₁, e₂⟩ := e₀.split
  exact ⟨_, s, _, s', e₁, e₂, of_decide_eq_true h⟩

/-- 33 datagrams arrive for a connection that reads only afterwards: it returns 32. -/
example : ∃ tr s t s', Exec step init tr s ∧ Exec step s t s' ∧ (arrivedFrom 7 tr).length = 33 ∧
    taskSteps t = 0 ∧ (got 0 t).length = 32 := by
  obtain ⟨tr, s', e, h⟩ := exec_by (step := step) (s := init)
    (.listen 1 :: .datagram 7 [1] :: List.replicate 4 .task ++
      (List.replicate 32 [.datagram 7 [2], .task, .task]).flatten ++ .accept 0 ::
      List.replicate 33 (.recv 0))
    (fun tr _ => decide ((arrivedFrom 7 (tr.take 103)).length = 33 ∧ taskSteps (tr.drop 103) = 0 ∧
      (got 0 (tr.drop 103)).length = 32))
    (by decide +kernel)
  have e₀ := e
  rw [← List.take_append_drop 103 tr] at e₀
  obtain ⟨s, e₁, e₂⟩ := e₀.split
  exact ⟨_, s, _, s', e₁, e₂, of_decide_eq_true h⟩

end Rsomeip
