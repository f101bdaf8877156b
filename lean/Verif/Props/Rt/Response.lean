import Verif.Rt.Response

/-! # C66: responses are delivered at most once -/

namespace Rsomeip

open Rt Rt.Response

variable {τ ε : Type}

/-- The responses given to the sender, in order. -/
def Spec.responses (tr : List (Action τ ε × Obs τ ε)) : List (Except ε τ) :=
  tr.filterMap fun x =>
    match x.1 with
    | .send r => some r
    | .ok v => some (.ok v)
    | .err e => some (.error e)
    | _ => none

/-- What calls of `get` returned, in order. -/
def Spec.answers (tr : List (Action τ ε × Obs τ ε)) : List (Option (Except ε τ)) :=
  tr.filterMap fun x =>
    match x.2 with
    | .got r => some r
    | .none => none

open Spec

theorem responses_snoc (tr : List (Action τ ε × Obs τ ε)) (x : Action τ ε × Obs τ ε) :
    responses (tr ++ [x]) = responses tr ++ responses [x] := List.filterMap_append

theorem answers_snoc (tr : List (Action τ ε × Obs τ ε)) (x : Action τ ε × Obs τ ε) :
    answers (tr ++ [x]) = answers tr ++ answers [x] := List.filterMap_append

structure ResponseInv (given : List (Except ε τ)) (got : List (Option (Except ε τ)))
    (s : State τ ε) : Prop where
  sender : s.sender = true → given = [] ∧ s.value = none
  one : given.length ≤ 1
  waiting : s.receiver = true → got = [] ∧ s.value = given.head?
  gone : s.receiver = false → s.value = none
  answered : ∀ r ∈ got, s.receiver = false ∧ got = [r] ∧ r = given.head? ∧
    (r = none → s.sender = false)

theorem response_step {given : List (Except ε τ)} {got : List (Option (Except ε τ))}
    {s s' : State τ ε} {a : Action τ ε} {o : Obs τ ε} (h : ResponseInv given got s)
    (hs : step s a = some (s', o)) :
    ResponseInv (given ++ responses [(a, o)]) (got ++ answers [(a, o)]) s' := by
  obtain ⟨h1, h2, h3, h4, h5⟩ := h
  obtain ⟨value, sender, receiver⟩ := s
  dsimp only at h1 h2 h3 h4 h5
  cases a <;> simp only [step, put] at hs <;> split at hs
  all_goals try cases hs
  all_goals try split at hs
  all_goals try cases hs
  all_goals
    simp only [responses, answers, List.filterMap_cons, List.filterMap_nil, List.append_nil]
    constructor <;> grind

theorem response_inv {tr : List (Action τ ε × Obs τ ε)} {s : State τ ε} (e : Exec step init tr s) :
    ResponseInv (responses tr) (answers tr) s := by
  induction e with
  | nil => exact ⟨fun _ => ⟨rfl, rfl⟩, Nat.zero_le _, fun _ => ⟨rfl, rfl⟩, nofun, nofun⟩
  | snoc _ hs ih =>
    rw [responses_snoc, answers_snoc]
    exact response_step ih hs

/-- **C66.** In every history of one response channel: at most one response is given, `get` returns
at most once, and what it returns is the response given — or nothing, and then none was given and
none ever will be. -/
theorem C66_response {tr : List (Action τ ε × Obs τ ε)} {s : State τ ε} (e : Exec step init tr s) :
    (responses tr).length ≤ 1 ∧ (answers tr).length ≤ 1 ∧
    ∀ r ∈ answers tr, r = (responses tr).head? ∧
      (r = none → ∀ tr' s', Exec step s tr' s' → responses tr' = []) := by
  have h := response_inv e
  refine ⟨h.one, ?_, ?_⟩
  · cases ha : answers tr with
    | nil => exact Nat.zero_le _
    | cons r l =>
      have := (h.answered r (by rw [ha]; exact List.mem_cons_self ..)).2.1
      rw [ha] at this
      cases this
      exact Nat.le_refl _
  · intro r hr
    obtain ⟨h1, h2, h3, h4⟩ := h.answered r hr
    refine ⟨h3, fun h0 tr' s' e' => ?_⟩
    have hs := h4 h0
    suffices hh : responses tr' = [] ∧ s'.sender = false from hh.1
    clear h h1 h2 h3 h4 hr
    induction e' with
    | nil => exact ⟨rfl, hs⟩
    | snoc _ hst ih =>
      rename_i tr' s1 s2 a o _
      obtain ⟨ih1, ih2⟩ := ih
      rw [responses_snoc, ih1]
      cases a <;> simp only [step, ih2] at hst
      case get =>
        split at hst
        · split at hst <;> cases hst <;> exact ⟨rfl, rfl⟩
        · cases hst
      case dropReceiver =>
        split at hst
        · cases hst; exact ⟨rfl, rfl⟩
        · cases hst
      all_goals simp at hst

/-- Somebody has used up the sending half: it was sent with, or dropped. -/
def Spec.senderUsed (tr : List (Action τ ε × Obs τ ε)) : Prop :=
  ∃ x ∈ tr, x.1 ≠ .get ∧ x.1 ≠ .dropReceiver

/-- Somebody has used up the receiving half: `get` has returned, or it was dropped. -/
def Spec.receiverUsed (tr : List (Action τ ε × Obs τ ε)) : Prop :=
  ∃ x ∈ tr, x.1 = .get ∨ x.1 = .dropReceiver

theorem response_handles {tr : List (Action τ ε × Obs τ ε)} {s : State τ ε}
    (e : Exec step init tr s) :
    (s.sender = false ↔ senderUsed tr) ∧ (s.receiver = false ↔ receiverUsed tr) := by
  induction e with
  | nil => simp [senderUsed, receiverUsed, init]
  | snoc _ hs ih =>
    rename_i tr s s' a o _
    obtain ⟨h1, h2⟩ := ih
    have k1 : senderUsed (tr ++ [(a, o)]) ↔ senderUsed tr ∨ (a ≠ .get ∧ a ≠ .dropReceiver) := by
      simp only [senderUsed, List.mem_append, List.mem_singleton, or_and_right, exists_or,
        exists_eq_left]
    have k2 : receiverUsed (tr ++ [(a, o)]) ↔ receiverUsed tr ∨ (a = .get ∨ a = .dropReceiver) := by
      simp only [receiverUsed, List.mem_append, List.mem_singleton, or_and_right, exists_or,
        exists_eq_left]
    rw [k1, k2, ← h1, ← h2]
    obtain ⟨value, sender, receiver⟩ := s
    cases a <;> simp only [step, put] at hs <;> split at hs
    all_goals try cases hs
    all_goals try split at hs
    all_goals try cases hs
    all_goals simp_all

/-- **C66.** `get` never waits forever: it returns once the response was given or the sender is gone,
if the receiver is still there, and not before; and it returns the response. -/
theorem C66_completes {tr : List (Action τ ε × Obs τ ε)} {s : State τ ε} (e : Exec step init tr s) :
    ((∃ s' o, step s .get = some (s', o)) ↔ ¬ receiverUsed tr ∧ senderUsed tr) ∧
    ∀ s' o, step s .get = some (s', o) → o = .got (responses tr).head? := by
  obtain ⟨h1, h2⟩ := response_handles e
  have h := (response_inv e).waiting
  have h' := (response_inv e).sender
  rw [← h1, ← h2]
  obtain ⟨value, sender, receiver⟩ := s
  cases receiver <;> cases sender <;> cases value <;> simp_all [step] <;> grind

/-- **C66.** The sender can give its response, or be dropped, at any time and once only, whether or not
somebody waits for it. -/
theorem C66_send_never_blocks {tr : List (Action τ ε × Obs τ ε)} {s : State τ ε}
    (e : Exec step init tr s) {a : Action τ ε} (ha : a ≠ .get ∧ a ≠ .dropReceiver) :
    (∃ s', step s a = some (s', .none)) ↔ ¬ senderUsed tr := by
  rw [← (response_handles e).1]
  obtain ⟨value, sender, receiver⟩ := s
  cases a <;> cases sender <;> simp_all [step]

/-- **C66.** The receiver can be dropped at any time before `get` has returned. -/
theorem C66_receiver_dropped {tr : List (Action τ ε × Obs τ ε)} {s : State τ ε}
    (e : Exec step init tr s) : (∃ s', step s .dropReceiver = some (s', .none)) ↔ ¬ receiverUsed tr := by
  rw [← (response_handles e).2]
  obtain ⟨value, sender, receiver⟩ := s
  cases receiver <;> simp_all [step]

example : ((perform (step (τ := Nat) (ε := Nat)) init [.ok 3, .get]).map fun x => answers x.1) =
    some [some (.ok 3)] := rfl

example : ((perform (step (τ := Nat) (ε := Nat)) init [.dropSender, .get]).map fun x => answers x.1) =
    some [none] := rfl

/-- A response given after the receiver was dropped is lost, and nothing blocks. -/
example : ((perform (step (τ := Nat) (ε := Nat)) init [.dropReceiver, .err 3]).map fun x =>
    (answers x.1, responses x.1)) = some ([], [.error 3]) := rfl

end Rsomeip
