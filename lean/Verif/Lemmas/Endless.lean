import Verif.Spec.Endless
import Mathlib.Tactic.Common
import Mathlib.Data.Finset.Card

/-! # Facts about endless runs -/

namespace Rsomeip.Spec.Endless

open Rt

variable {σ α ω : Type} {step : σ → α → Option (σ × ω)} {s₀ : σ}

theorem move (r : Endless step s₀) (n : Nat) :
    (r.act n = none ∧ r.state (n + 1) = r.state n) ∨
    ∃ a o, r.act n = some (a, o) ∧ step (r.state n) a = some (r.state (n + 1), o) := by
  have h := r.next n
  cases hx : r.act n with
  | none => rw [hx] at h; exact .inl ⟨rfl, h⟩
  | some x => rw [hx] at h; exact .inr ⟨x.1, x.2, rfl, h⟩

theorem hist_succ (r : Endless step s₀) (n : Nat) : r.hist (n + 1) = r.hist n ++ (r.act n).toList := by
  rw [hist, List.range_succ, List.filterMap_append, hist]
  cases h : r.act n <;> simp [h]

/-- What happens between two points of time is an execution. -/
theorem segment (r : Endless step s₀) {n m : Nat} (h : n ≤ m) :
    ∃ t, r.hist m = r.hist n ++ t ∧ Exec step (r.state n) t (r.state m) := by
  induction m, h using Nat.le_induction with
  | base => exact ⟨[], by simp, .nil⟩
  | succ m h ih =>
    obtain ⟨t, h1, h2⟩ := ih
    rw [r.hist_succ, h1]
    rcases r.move m with ⟨h3, h4⟩ | ⟨a, o, h3, h4⟩
    · exact ⟨t, by simp [h3], by rw [h4]; exact h2⟩
    · exact ⟨t ++ [(a, o)], by simp [h3], h2.snoc h4⟩

theorem exec (r : Endless step s₀) (n : Nat) : Exec step s₀ (r.hist n) (r.state n) := by
  obtain ⟨t, h1, h2⟩ := r.segment (Nat.zero_le n)
  rw [r.start] at h2
  rw [h1]
  exact h2

/-- If every step made from `N` on keeps a number from falling, and those of some kind make it grow, and
these are possible again and again, then the number grows beyond every bound. -/
theorem grows (r : Endless step s₀) {P : α → Prop} (hf : r.FairTo P) (f : Nat → Nat) {N : Nat}
    (h1 : ∀ n, N ≤ n → f n ≤ f (n + 1)) (h2 : ∀ n, N ≤ n → r.Does n P → f n < f (n + 1))
    (h3 : ∀ M, ∃ n, M ≤ n ∧ r.Can n P) (K : Nat) : ∃ n, N ≤ n ∧ K ≤ f n := by
  have mono : ∀ n m, N ≤ n → n ≤ m → f n ≤ f m := by
    intro n m hn hm
    induction m, hm using Nat.le_induction with
    | base => exact Nat.le_refl _
    | succ m hm ih => exact Nat.le_trans ih (h1 m (by omega))
  induction K with
  | zero => exact ⟨N, Nat.le_refl _, Nat.zero_le _⟩
  | succ K ih =>
    obtain ⟨n, h4, h5⟩ := ih
    obtain ⟨m, h6, h7⟩ := hf h3 n
    have := mono n m h4 h6
    have := h2 m (by omega) h7
    exact ⟨m + 1, by omega, by omega⟩

/-- Every execution is the beginning of a run in which nothing happens afterwards. -/
theorem of_exec {tr : List (α × ω)} {s : σ} (e : Exec step s₀ tr s) :
    ∃ r : Endless step s₀, ∀ n, tr.length ≤ n → r.state n = s ∧ r.hist n = tr ∧ r.act n = none := by
  induction e with
  | nil =>
    refine ⟨⟨fun _ => s₀, fun _ => none, rfl, fun _ => rfl⟩, fun n _ => ⟨rfl, ?_, rfl⟩⟩
    simp [hist]
  | @snoc tr s₁ s₂ a o e hs ih =>
    obtain ⟨r, hr⟩ := ih
    have h0 := hr tr.length (Nat.le_refl _)
    let st : Nat → σ := fun n => if n ≤ tr.length then r.state n else s₂
    let ac : Nat → Option (α × ω) := fun n =>
      if n < tr.length then r.act n else if n = tr.length then some (a, o) else none
    have a1 : ∀ n, n < tr.length → ac n = r.act n := fun n h => if_pos h
    have a2 : ac tr.length = some (a, o) := by
      show (if _ then _ else if _ then _ else _) = _
      rw [if_neg (by omega), if_pos rfl]
    have a3 : ∀ n, tr.length < n → ac n = none := by
      intro n hn
      show (if _ then _ else if _ then _ else _) = _
      rw [if_neg (by omega), if_neg (by omega)]
    have s1 : ∀ n, n ≤ tr.length → st n = r.state n := fun n h => if_pos h
    have s2 : ∀ n, tr.length < n → st n = s₂ := fun n h => if_neg (by omega)
    have h1 : ∀ n, match ac n with
        | none => st (n + 1) = st n
        | some x => step (st n) x.1 = some (st (n + 1), x.2) := by
      intro n
      rcases Nat.lt_trichotomy n tr.length with h | h | h
      · rw [a1 n h, s1 n (by omega), s1 (n + 1) (by omega)]
        exact r.next n
      · subst h
        rw [a2, s1 _ (Nat.le_refl _), s2 _ (by omega), h0.1]
        exact hs
      · rw [a3 n h, s2 n h, s2 (n + 1) (by omega)]
    let r' : Endless step s₀ := ⟨st, ac, by rw [s1 0 (by omega)]; exact r.start, h1⟩
    have h2 : ∀ n, n ≤ tr.length → r'.hist n = r.hist n := by
      intro n hn
      induction n with
      | zero => rfl
      | succ n ih =>
        rw [hist_succ, hist_succ, ih (by omega)]
        exact congrArg (fun x => r.hist n ++ x.toList) (a1 n (by omega))
    refine ⟨r', fun n hn => ?_⟩
    rw [List.length_append, List.length_singleton] at hn
    refine ⟨s2 n (by omega), ?_, a3 n (by omega)⟩
    induction n, hn using Nat.le_induction with
    | base =>
      rw [hist_succ, h2 _ (Nat.le_refl _), h0.2.1]
      exact congrArg (fun x => tr ++ x.toList) a2
    | succ n hn ih =>
      rw [hist_succ, ih]
      show _ ++ (ac n).toList = _
      rw [a3 n (by omega), Option.toList_none, List.append_nil]

end Rsomeip.Spec.Endless
