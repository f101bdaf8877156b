import Verif.Lemmas.Endless
import Mathlib.Data.Nat.Find
import Mathlib.Logic.Encodable.Basic
import Mathlib.Data.Finset.Card
import Mathlib.Tactic.Common

/-! # Runs in which nobody is passed over exist

Every execution can be continued by a schedule that serves, of all that can make a step, the one that has
waited longest. -/

namespace Rsomeip.Spec.Endless

open Rt

variable {σ α ω : Type} {step : σ → α → Option (σ × ω)} {s₀ : σ}

/-- An execution, and then a run. -/
theorem after {tr : List (α × ω)} {s : σ} (e : Exec step s₀ tr s) (r : Endless step s) :
    ∃ r' : Endless step s₀, ∀ n, r'.state (tr.length + n) = r.state n ∧
      r'.act (tr.length + n) = r.act n ∧ r'.hist (tr.length + n) = tr ++ r.hist n := by
  induction e with
  | nil => exact ⟨r, fun n => by simp⟩
  | @snoc tr s₁ s₂ a o e hs ih =>
    let q : Endless step s₁ := {
      state := fun n => match n with | 0 => s₁ | n + 1 => r.state n
      act := fun n => match n with | 0 => some (a, o) | n + 1 => r.act n
      start := rfl
      next := fun n => match n with
        | 0 => by show step s₁ a = some (r.state 0, o); rw [r.start]; exact hs
        | n + 1 => r.next n }
    have hq : ∀ n, q.hist (n + 1) = (a, o) :: r.hist n := by
      intro n
      induction n with
      | zero => rfl
      | succ n ih =>
        rw [hist_succ, ih, hist_succ, List.cons_append]
    obtain ⟨r', h⟩ := ih q
    refine ⟨r', fun n => ?_⟩
    obtain ⟨h1, h2, h3⟩ := h (n + 1)
    rw [List.length_append, List.length_singleton]
    have h0 : tr.length + 1 + n = tr.length + (n + 1) := by omega
    rw [h0]
    refine ⟨h1, h2, ?_⟩
    rw [h3, hq, List.append_assoc]
    rfl

/-- One step of the schedule: of those that can make a step, one with the smallest number is served. -/
theorem pick (step : σ → α → Option (σ × ω)) (P : Nat → σ → α → Prop) (n : Nat) (x : σ × (Nat → Nat)) :
    ∃ y : (σ × (Nat → Nat)) × Option (α × ω),
      (y = (x, none) ∧ ∀ i a, P i x.1 a → step x.1 a = none) ∨
      ∃ i a o, P i x.1 a ∧ step x.1 a = some (y.1.1, o) ∧ y.2 = some (a, o) ∧
        y.1.2 = Function.update x.2 i (n + 1) ∧
        ∀ j a, P j x.1 a → step x.1 a ≠ none → x.2 i + i ≤ x.2 j + j := by
  classical
  by_cases h : ∃ k i a, P i x.1 a ∧ step x.1 a ≠ none ∧ x.2 i + i = k
  · obtain ⟨i, a, h1, h2, h3⟩ := Nat.find_spec h
    obtain ⟨⟨s', o⟩, h4⟩ := Option.ne_none_iff_exists'.mp h2
    refine ⟨((s', Function.update x.2 i (n + 1)), some (a, o)), .inr ⟨i, a, o, h1, h4, rfl, rfl, ?_⟩⟩
    intro j b h5 h6
    rw [h3]
    exact Nat.find_min' h ⟨j, b, h5, h6, rfl⟩
  · refine ⟨(x, none), .inl ⟨rfl, fun i a hi => ?_⟩⟩
    apply Classical.byContradiction
    intro hn
    exact h ⟨_, i, a, hi, hn, rfl⟩

/-- From every state there is a run that is fair to countably many, and in which nobody else does
anything. -/
theorem fair_from (P : Nat → σ → α → Prop) (s : σ) : ∃ r : Endless step s, 
    (∀ i, (∀ N, ∃ n, N ≤ n ∧ ∃ a o s', P i (r.state n) a ∧ step (r.state n) a = some (s', o)) →
      ∀ N, ∃ n, N ≤ n ∧ ∃ a o, r.act n = some (a, o) ∧ P i (r.state n) a) ∧
    ∀ n a o, r.act n = some (a, o) → ∃ i, P i (r.state n) a := by
  obtain ⟨f, hf⟩ := Classical.axiomOfChoice fun x : Nat × (σ × (Nat → Nat)) => pick step P x.1 x.2
  let st : Nat → σ × (Nat → Nat) := fun n => Nat.rec (s, fun _ => 0) (fun n x => (f (n, x)).1) n
  have hst : ∀ n, st (n + 1) = (f (n, st n)).1 := fun _ => rfl
  let r : Endless step s := {
    state := fun n => (st n).1
    act := fun n => (f (n, st n)).2
    start := rfl
    next := fun n => by
      rcases hf (n, st n) with ⟨h1, -⟩ | ⟨i, a, o, -, h2, h3, -, -⟩
      · rw [hst, h1]
      · rw [hst, h3]; exact h2 }
  refine ⟨r, fun i hi N => ?_, fun n a o h => ?_⟩
  · apply Classical.byContradiction
    intro hN
    have h0 : ∀ n, N ≤ n → ¬ ∃ a o, r.act n = some (a, o) ∧ P i (r.state n) a := fun n hn hd => hN ⟨n, hn, hd⟩
    -- the number of this one does not change any more
    have h1 : ∀ n, N ≤ n → (st n).2 i = (st N).2 i := by
      intro n hn
      induction n, hn using Nat.le_induction with
      | base => rfl
      | succ n hn ih =>
        rcases hf (n, st n) with ⟨h1, -⟩ | ⟨j, a, o, h1, h2, h3, h4, -⟩
        · rw [hst, h1]; exact ih
        · rw [hst, h4]
          by_cases hj : i = j
          · subst hj
            exact absurd ⟨a, o, h3, h1⟩ (h0 n hn)
          · rw [Function.update_of_ne hj]; exact ih
    generalize hK : (st N).2 i + i = K at h1
    let g : Nat → Nat := fun n => ((Finset.range (K + 1)).filter fun j => K < (st n).2 j + j).card
    have mono : ∀ n, max N K ≤ n → ∀ j, K < (st n).2 j + j → K < (st (n + 1)).2 j + j := by
      intro n hn j hj
      rcases hf (n, st n) with ⟨h2, -⟩ | ⟨j', a, o, -, -, -, h4, -⟩
      · rw [hst, h2]; exact hj
      · rw [hst, h4]
        by_cases hjj : j = j'
        · subst hjj
          rw [Function.update_self]
          dsimp only
          omega
        · rw [Function.update_of_ne hjj]; exact hj
    have g1 : ∀ n, max N K ≤ n → g n ≤ g (n + 1) := by
      intro n hn
      refine Finset.card_le_card fun j hj => ?_
      rw [Finset.mem_filter] at hj ⊢
      exact ⟨hj.1, mono n hn j hj.2⟩
    have g2 : ∀ n, max N K ≤ n → (∃ a o s', P i (r.state n) a ∧ step (r.state n) a = some (s', o)) → g n < g (n + 1) := by
      rintro n hn ⟨a, o, s', h2, h3⟩
      have h3 : step (st n).1 a = some (s', o) := h3
      rcases hf (n, st n) with ⟨-, h4⟩ | ⟨j, a', o', h4, -, -, h5, h6⟩
      · rw [h4 i a h2] at h3; cases h3
      · have h7 := h6 i a h2 (by rw [h3]; nofun)
        have h8 := h1 n (by omega)
        dsimp only at h7
        refine Finset.card_lt_card (Finset.ssubset_iff_of_subset (fun j hj => ?_) |>.mpr ⟨j, ?_, ?_⟩)
        · rw [Finset.mem_filter] at hj ⊢
          exact ⟨hj.1, mono n hn j hj.2⟩
        · rw [Finset.mem_filter, Finset.mem_range, hst, h5, Function.update_self]
          dsimp only
          omega
        · rw [Finset.mem_filter]
          omega
    have g3 : ∀ M, ∃ n, max N K ≤ n ∧ M ≤ g n := by
      intro M
      induction M with
      | zero => exact ⟨_, Nat.le_refl _, Nat.zero_le _⟩
      | succ M ih =>
        obtain ⟨n, h2, h3⟩ := ih
        obtain ⟨m, h4, h5⟩ := hi n
        have h6 : g n ≤ g m := by
          clear h5
          induction m, h4 using Nat.le_induction with
          | base => exact Nat.le_refl _
          | succ m hm ih => exact Nat.le_trans ih (g1 m (by omega))
        have := g2 m (by omega) h5
        exact ⟨m + 1, by omega, by omega⟩
    obtain ⟨n, -, h2⟩ := g3 (K + 2)
    have h3 : g n ≤ _ := Finset.card_filter_le ..
    rw [Finset.card_range] at h3
    omega
  · have h : (f (n, st n)).2 = some (a, o) := h
    rcases hf (n, st n) with ⟨h1, -⟩ | ⟨i, a', o', h1, -, h3, -, -⟩
    · rw [h1] at h; cases h
    · rw [h3] at h
      cases h
      exact ⟨i, h1⟩

/-- Every execution can be continued to a run that is fair to countably many, and in which nobody else does
anything any more. Of several steps that one of them can make, it makes one that satisfies `G`; it is not
passed over if from some point on there is such a step whenever there is one at all. -/
theorem fair_after' {ι : Type} [Encodable ι] (P : ι → α → Prop) (G : σ → α → Prop)
    {tr : List (α × ω)} {s : σ} (e : Exec step s₀ tr s) :
    ∃ r : Endless step s₀,
      (∀ i, (∃ M, ∀ n a, M ≤ n → P i a → step (r.state n) a ≠ none →
        ∃ b, P i b ∧ G (r.state n) b ∧ step (r.state n) b ≠ none) → r.FairTo (P i)) ∧
      r.state tr.length = s ∧ r.hist tr.length = tr ∧
      ∀ n a o, tr.length ≤ n → r.act n = some (a, o) → (∃ i, P i a) ∧ G (r.state n) a := by
  obtain ⟨q, h1, h2⟩ := fair_from (step := step)
    (fun n s a => ∃ i, Encodable.decode n = some i ∧ P i a ∧ G s a) s
  obtain ⟨r, hr⟩ := after e q
  refine ⟨r, fun i hG hi N => ?_, ?_, ?_, fun n a o hn h => ?_⟩
  · obtain ⟨L, hG⟩ := hG
    obtain ⟨n, h3, a, o, h4, i', h5, h6, -⟩ := h1 (Encodable.encode i) (fun M => by
      obtain ⟨n, h3, a, o, s', h4, h5⟩ := hi (tr.length + M + L)
      obtain ⟨b, h6, h7, h8⟩ := hG n a (by omega) h4 (by rw [h5]; nofun)
      obtain ⟨k, rfl⟩ := Nat.exists_eq_add_of_le (Nat.le_trans (Nat.le_add_right ..)
        (Nat.le_trans (Nat.le_add_right ..) h3))
      rw [(hr k).1] at h7 h8
      obtain ⟨⟨s'', o'⟩, h9⟩ := Option.ne_none_iff_exists'.mp h8
      exact ⟨k, by omega, b, o', s'', ⟨i, Encodable.encodek i, h6, h7⟩, h9⟩) N
    rw [Encodable.encodek] at h5
    cases h5
    exact ⟨tr.length + n, by omega, a, o, by rw [(hr n).2.1]; exact h4, h6⟩
  · rw [← Nat.add_zero tr.length, (hr 0).1, q.start]
  · have := (hr 0).2.2
    rw [Nat.add_zero] at this
    rw [this]
    simp [hist]
  · obtain ⟨k, rfl⟩ := Nat.exists_eq_add_of_le hn
    rw [(hr k).2.1] at h
    obtain ⟨_, i, -, h3, h4⟩ := h2 k a o h
    rw [(hr k).1]
    exact ⟨⟨i, h3⟩, h4⟩

theorem fair_after {ι : Type} [Encodable ι] (P : ι → α → Prop) (G : σ → α → Prop)
    (hG : ∀ s i a, P i a → step s a ≠ none → ∃ b, P i b ∧ G s b ∧ step s b ≠ none)
    {tr : List (α × ω)} {s : σ} (e : Exec step s₀ tr s) :
    ∃ r : Endless step s₀, (∀ i, r.FairTo (P i)) ∧ r.state tr.length = s ∧ r.hist tr.length = tr ∧
      ∀ n a o, tr.length ≤ n → r.act n = some (a, o) → (∃ i, P i a) ∧ G (r.state n) a := by
  obtain ⟨r, h1, h2⟩ := fair_after' P G e
  exact ⟨r, fun i => h1 i ⟨0, fun n a _ => hG _ i a⟩, h2⟩

end Rsomeip.Spec.Endless

namespace Rsomeip.Spec.Endless

open Rt

variable {σ α ω : Type} {step : σ → α → Option (σ × ω)} {s₀ : σ}

/-- What happens between two points of time happens at points in between. -/
theorem segment_acts (r : Endless step s₀) {n m : Nat} (h : n ≤ m) :
    ∃ t, r.hist m = r.hist n ++ t ∧ Exec step (r.state n) t (r.state m) ∧
      ∀ t₁ x t₂, t = t₁ ++ x :: t₂ → ∃ j, n ≤ j ∧ r.act j = some x ∧ r.hist j = r.hist n ++ t₁ := by
  induction m, h using Nat.le_induction with
  | base => exact ⟨[], by simp, .nil, fun t₁ x t₂ h => by simp at h⟩
  | succ m h ih =>
    obtain ⟨t, h1, h2, h3⟩ := ih
    rcases r.move m with ⟨h4, h5⟩ | ⟨a, o, h4, h5⟩
    · exact ⟨t, by rw [hist_succ, h4, h1]; simp, by rw [h5]; exact h2, h3⟩
    · refine ⟨t ++ [(a, o)], by rw [hist_succ, h4, h1]; simp, .snoc h2 h5, fun t₁ x t₂ ht => ?_⟩
      rcases List.eq_nil_or_concat t₂ with rfl | ⟨t₃, y, rfl⟩
      · obtain ⟨h6, h7⟩ := List.append_inj' ht rfl
        cases h7
        exact ⟨m, h, h4, by rw [h1, h6]⟩
      · rw [List.concat_eq_append, ← List.cons_append, ← List.append_assoc] at ht
        exact h3 t₁ x t₃ (List.append_inj' ht rfl).1

/-- Finitely many things that each come true for good all come true. -/
theorem together (Q : Nat → Nat → Prop) (hm : ∀ c n m, n ≤ m → Q c n → Q c m) {n K : Nat}
    (hK : ∀ c, K ≤ c → Q c n) (h : ∀ c, ∃ m, n ≤ m ∧ Q c m) : ∃ m, n ≤ m ∧ ∀ c, Q c m := by
  suffices key : ∀ k, ∃ m, n ≤ m ∧ ∀ c, c < k → Q c m by
    obtain ⟨m, h1, h2⟩ := key K
    refine ⟨m, h1, fun c => ?_⟩
    by_cases hc : c < K
    · exact h2 c hc
    · exact hm c n m h1 (hK c (Nat.not_lt.mp hc))
  intro k
  induction k with
  | zero => exact ⟨n, Nat.le_refl _, nofun⟩
  | succ k ih =>
    obtain ⟨m, h1, h2⟩ := ih
    obtain ⟨m', h3, h4⟩ := h k
    refine ⟨max m m', by omega, fun c hc => ?_⟩
    by_cases hck : c = k
    · subst hck; exact hm _ _ _ (Nat.le_max_right ..) h4
    · exact hm _ _ _ (Nat.le_max_left ..) (h2 c (by omega))

end Rsomeip.Spec.Endless
