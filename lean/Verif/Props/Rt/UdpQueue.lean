import Verif.Props.Rt.Udp

/-! # C118: the order in which UDP connections are accepted -/

namespace Rsomeip

open Rt Rt.Udp Spec.Udp

/-- The connections made by datagrams of new senders, in order. -/
def Spec.Udp.admissions (tr : Trace) : List (Nat × Addr) :=
  tr.filterMap fun
    | (.task, .admitted a _ c) => some (c, a)
    | _ => none

theorem admissions_snoc (tr : Trace) (x : Action × Obs) :
    admissions (tr ++ [x]) = admissions tr ++ admissions [x] := by
  simp only [admissions, List.filterMap_append]

/-- **C118.** What a listener's `accept` has returned is the beginning of the list of connections made
for it: they come in the order in which their first datagrams were dealt with, and none is left out. -/
theorem C118_order {tr : Trace} {s : State} (e : Exec step init tr s) (l : Nat) :
    takenFrom l tr ++ pending l tr = offered l tr ∧ (offered l tr).Sublist (admissions tr) := by
  constructor
  · obtain ⟨u, hu⟩ := (queues e).split l
    rw [pending, ← hu, List.drop_left]
  · induction e with
    | nil => exact List.nil_sublist _
    | @snoc tr s s' x o e hs ih =>
      rw [(queues e).offered_snoc (exec_inv e).2.2 (move_of_step hs), admissions_snoc]
      refine ih.append ?_
      cases move_of_step hs
      case enqueue a p l' hpc hl hrx hlen =>
        dsimp only
        split
        · exact List.Sublist.refl _
        · exact List.nil_sublist _
      all_goals exact List.nil_sublist _

/-- **C118.** A connection is made for exactly one listener, the newest one. -/
theorem C118_newest {tr : Trace} {s s' : State} {a : Addr} {p : Bytes} {c : Nat}
    (e : Exec step init tr s) (h : step s .task = some (s', .admitted a p c)) :
    ∃ l n rest, listeners tr = (l, n) :: rest ∧ (.dropListener l, .none) ∉ tr ∧
      ∀ l', offered l' (tr ++ [(.task, .admitted a p c)]) =
        offered l' tr ++ if l' = l then [(c, a)] else [] := by
  have m := move_of_step h
  have ho := (queues e).offered_snoc (exec_inv e).2.2 m
  cases m with
  | enqueue _ _ l hpc hl hrx hlen =>
    obtain ⟨n, rest, hr⟩ := (exec_inv e).2.2.latest l hl
    refine ⟨l, n, rest, hr, ((listener_open_iff e l).mpr hrx).2, fun l' => ?_⟩
    rw [ho]
    simp only [hl, Option.some.injEq]
    by_cases hll : l' = l
    · subst hll; simp
    · rw [if_neg (Ne.symm hll), if_neg hll]

/-- **C118.** `accept` on an open listener: it returns the connection that has been waiting longest, at
once; if none is, it waits if the listener is the newest one and the socket has not been dropped and
failed, and otherwise reports the end. -/
theorem C118_accept {tr : Trace} {s : State} (e : Exec step init tr s) {l : Nat}
    (hl : ListenerOpen l tr) :
    (∀ c a rest, pending l tr = (c, a) :: rest → ∃ s', step s (.accept l) = some (s', .connection c a)) ∧
    (pending l tr = [] →
      ((∃ n rest, listeners tr = (l, n) :: rest) ∧ ¬ ((.close, .none) ∈ tr ∧ (.failure, .none) ∈ tr) →
        step s (.accept l) = none) ∧
      (¬ ((∃ n rest, listeners tr = (l, n) :: rest) ∧ ¬ ((.close, .none) ∈ tr ∧ (.failure, .none) ∈ tr)) →
        step s (.accept l) = some (s, .acceptNone))) := by
  have hrx := (listener_open_iff e l).mp hl
  have hq := (queues e).queue l hrx
  have hlt : l < s.backlogCount := by
    rcases Nat.lt_or_ge l s.backlogCount with h | h
    · exact h
    · rw [((exec_inv e).1.backlogs l h).1] at hrx; cases hrx
  refine ⟨fun c a rest hp => ?_, fun hp => ?_⟩
  · rw [hp] at hq
    exact ⟨_, by simp only [step, accept, hlt, hrx, hq, and_self, if_true]; rfl⟩
  · rw [hp] at hq
    have hiff : (s.listener = some l ∧ s.shared = true) ↔ ((∃ n rest, listeners tr = (l, n) :: rest) ∧
        ¬ ((.close, .none) ∈ tr ∧ (.failure, .none) ∈ tr)) := by
      refine and_congr ⟨(exec_inv e).2.2.latest l, fun ⟨n, rest, h⟩ => listener_eq e h hl.2⟩ ?_
      rw [closed_iff e, failed_iff e]
      cases h1 : s.owner <;> cases h2 : s.pc <;> simp [State.shared, h1, h2]
    rw [← hiff]
    simp only [step, accept, hlt, hrx, hq, and_self, if_true]
    exact ⟨fun h => if_pos h, fun h => if_neg h⟩

/-- Three peers and two listeners: the first listener has two connections, which come in order, and
ends; the second one has the third. -/
def Spec.Udp.queueing : Trace :=
  [(.listen 2, .listening 0), (.datagram 7 [1], .none), (.task, .none), (.task, .admitted 7 [1] 0),
    (.task, .routed 7 [1] 0), (.task, .none), (.datagram 8 [2], .none), (.task, .none),
    (.task, .admitted 8 [2] 1), (.task, .routed 8 [2] 1), (.task, .none), (.accept 0, .connection 0 7),
    (.listen 2, .listening 1), (.datagram 9 [3], .none), (.task, .none), (.task, .admitted 9 [3] 2),
    (.task, .routed 9 [3] 2), (.task, .none)]

example : ∃ s, Exec step init queueing s ∧ takenFrom 0 queueing = [(0, 7)] ∧
    pending 0 queueing = [(1, 8)] ∧ pending 1 queueing = [(2, 9)] ∧ ListenerOpen 0 queueing ∧
    ListenerOpen 1 queueing :=
  ⟨_, exec_of_perform (as := queueing.map Prod.fst) rfl, by decide⟩

/-- Then both queues are emptied: the first listener has ended, the second one waits. -/
example : ∃ s, Exec step init (queueing ++ [(.accept 0, .connection 1 8), (.accept 1, .connection 2 9),
      (.accept 0, .acceptNone)]) s ∧ (step s (.accept 1)).isNone = true :=
  ⟨_, exec_of_perform (as := (queueing.map Prod.fst) ++ [.accept 0, .accept 1, .accept 0]) rfl, by rfl⟩

/-- A connection is about to be made for the second listener. -/
example : ∃ s s', Exec step init (queueing.take 15) s ∧ step s .task = some (s', .admitted 9 [3] 2) :=
  ⟨_, _, exec_of_perform (as := (queueing.take 15).map Prod.fst) rfl, rfl⟩

end Rsomeip
