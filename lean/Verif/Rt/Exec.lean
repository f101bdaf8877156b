/-! # Executions of transition systems -/

namespace Rsomeip.Rt

/-- `Exec step s₀ tr s`: starting in `s₀`, the actions of `tr` can happen one after the other,
showing what `tr` says, and lead to `s`. -/
inductive Exec {σ α ω : Type} (step : σ → α → Option (σ × ω)) (s₀ : σ) : List (α × ω) → σ → Prop where
  | nil : Exec step s₀ [] s₀
  | snoc {tr : List (α × ω)} {s s' : σ} {a : α} {o : ω} : Exec step s₀ tr s →
      step s a = some (s', o) → Exec step s₀ (tr ++ [(a, o)]) s'

/-- Perform the actions of a list; `none` if one cannot happen. Like `Exec`, not part of the code: it is how
the steps of every model in this directory are put together. -/
def perform {σ α ω : Type} (step : σ → α → Option (σ × ω)) (s : σ) :
    List α → Option (List (α × ω) × σ)
  | [] => some ([], s)
  | a :: as =>
    match step s a with
    | none => none
    | some (s', o) =>
      match perform step s' as with
      | none => none
      | some (tr, s'') => some ((a, o) :: tr, s'')

variable {σ α ω : Type} {step : σ → α → Option (σ × ω)}

theorem Exec.cons {s s' s'' : σ} {a : α} {o : ω} {tr : List (α × ω)} (h : step s a = some (s', o))
    (e : Exec step s' tr s'') : Exec step s ((a, o) :: tr) s'' := by
  induction e with
  | nil => exact .snoc (tr := []) .nil h
  | snoc _ h' ih => exact .snoc (tr := (a, o) :: _) ih h'

theorem Exec.append {s s' s'' : σ} {t u : List (α × ω)} (h : Exec step s t s')
    (e : Exec step s' u s'') : Exec step s (t ++ u) s'' := by
  induction e with
  | nil => rwa [List.append_nil]
  | snoc _ h' ih => rw [← List.append_assoc]; exact .snoc ih h'

theorem Exec.split {s s'' : σ} {t u : List (α × ω)} (e : Exec step s (t ++ u) s'') :
    ∃ s', Exec step s t s' ∧ Exec step s' u s'' := by
  generalize h : t ++ u = tr at e
  induction e generalizing u with
  | nil =>
    obtain ⟨rfl, rfl⟩ := List.append_eq_nil_iff.mp h
    exact ⟨_, .nil, .nil⟩
  | snoc e hs ih =>
    rcases List.eq_nil_or_concat u with rfl | ⟨u', x, rfl⟩
    · rw [List.append_nil] at h
      subst h
      exact ⟨_, .snoc e hs, .nil⟩
    · rw [List.concat_eq_append, ← List.append_assoc] at h
      obtain ⟨h1, h2⟩ := List.append_inj' h rfl
      cases h2
      obtain ⟨s', e1, e2⟩ := ih h1
      exact ⟨s', e1, by rw [List.concat_eq_append]; exact .snoc e2 hs⟩

theorem Exec.last {s s'' : σ} {tr : List (α × ω)} {a : α} {o : ω}
    (e : Exec step s (tr ++ [(a, o)]) s'') :
    ∃ s', Exec step s tr s' ∧ step s' a = some (s'', o) := by
  generalize h : tr ++ [(a, o)] = t at e
  cases e with
  | nil => simp at h
  | snoc e hs =>
    obtain ⟨h1, h2⟩ := List.append_inj' h rfl
    cases h2
    subst h1
    exact ⟨_, e, hs⟩

theorem exec_of_perform {s s' : σ} {as : List α} {tr : List (α × ω)}
    (h : perform step s as = some (tr, s')) : Exec step s tr s' := by
  induction as generalizing s tr with
  | nil => cases h; exact .nil
  | cons a as ih =>
    simp only [perform] at h
    split at h
    · cases h
    · rename_i s₁ o h₁
      split at h
      · cases h
      · rename_i t s₂ h₂
        cases h
        exact .cons h₁ (ih h₂)

theorem perform_length {s s' : σ} {as : List α} {tr : List (α × ω)}
    (h : perform step s as = some (tr, s')) : tr.map Prod.fst = as := by
  induction as generalizing s tr with
  | nil => cases h; rfl
  | cons a as ih =>
    simp only [perform] at h
    split at h
    · cases h
    · split at h
      · cases h
      · rename_i h₂
        cases h
        simp [ih h₂]

/-- If performing the actions shows `os`, then this is an execution. -/
theorem exec_of_shown {s : σ} {as : List α} {os : List ω}
    (h : (perform step s as).map (fun x => x.1.map Prod.snd) = some os) :
    ∃ s', Exec step s (as.zip os) s' := by
  cases hp : perform step s as with
  | none => rw [hp] at h; cases h
  | some x =>
    obtain ⟨tr, s'⟩ := x
    rw [hp] at h
    have h1 : tr.map Prod.snd = os := Option.some.inj h
    refine ⟨s', ?_⟩
    have h2 : ∀ l : List (α × ω), (l.map Prod.fst).zip (l.map Prod.snd) = l := by
      intro l
      induction l with
      | nil => rfl
      | cons x l ih => simp [ih]
    rw [← h1, ← perform_length hp, h2]
    exact exec_of_perform hp

/-- If performing the actions leads to a state with a property, then such a state can be
reached. -/
theorem exec_reaches {s : σ} (as : List α) (P : σ → Bool)
    (h : (perform step s as).map (fun x => P x.2) = some true) :
    ∃ tr s', Exec step s tr s' ∧ P s' = true := by
  cases hp : perform step s as with
  | none => rw [hp] at h; cases h
  | some x =>
    rw [hp] at h
    exact ⟨x.1, x.2, exec_of_perform hp, Option.some.inj h⟩

/-- If performing the actions is possible, and what is seen and the state have a property, then there
is such an execution. -/
theorem exec_by {s : σ} (as : List α) (P : List (α × ω) → σ → Bool)
    (h : (perform step s as).map (fun x => P x.1 x.2) = some true) :
    ∃ tr s', Exec step s tr s' ∧ P tr s' = true := by
  cases hp : perform step s as with
  | none => rw [hp] at h; cases h
  | some x =>
    rw [hp] at h
    exact ⟨x.1, x.2, exec_of_perform hp, Option.some.inj h⟩

end Rsomeip.Rt
