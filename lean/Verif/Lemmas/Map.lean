import Verif.Support.Map

/-! # Lemmas about maps -/

namespace Rsomeip

namespace Map

variable {κ ν : Type} [DecidableEq κ]

theorem find_erase (k k' : κ) (es : List (κ × ν)) :
    find k (erase k' es) = if k' = k then none else find k es := by
  induction es with
  | nil => simp [erase, find]
  | cons e es ih =>
    simp only [erase, List.filter_cons] at ih ⊢
    by_cases h : e.1 = k'
    · rw [if_neg (by simp [h]), ih]
      by_cases hk : k' = k
      · rw [if_pos hk, if_pos hk]
      · rw [if_neg hk, if_neg hk, find, if_neg (by rw [h]; exact hk)]
    · rw [if_pos (by simp [h]), find, find, ih]
      by_cases hk : k' = k
      · rw [if_pos hk, if_neg (by rw [← hk]; exact h), if_pos hk]
      · rw [if_neg hk, if_neg hk]

theorem get_insert (m : Map κ ν) (k k' : κ) (v : ν) :
    (m.insert k' v).2.get k = if k' = k then some v else m.get k := by
  simp only [insert, get, find, find_erase]
  by_cases h : k' = k <;> simp [h]

theorem get_remove (m : Map κ ν) (k k' : κ) :
    (m.remove k').2.get k = if k' = k then none else m.get k := by
  simp only [remove, get, find_erase]

theorem get_modify (m : Map κ ν) (k k' : κ) (f : ν → ν) :
    (m.modify k' f).2.get k = if k' = k then (m.get k).map f else m.get k := by
  simp only [modify]
  cases h : m.get k' with
  | none =>
    by_cases hk : k' = k
    · subst hk; simp [h]
    · simp [hk]
  | some v =>
    simp only [get, find, find_erase]
    by_cases hk : k' = k
    · subst hk
      simp only [get] at h
      simp [h]
    · simp [hk]

theorem modify_fst (m : Map κ ν) (k : κ) (f : ν → ν) : (m.modify k f).1 = m.get k := by
  simp only [modify]
  cases h : m.get k <;> rfl

theorem mem_insert (m : Map κ ν) (k : κ) (v : ν) (e : κ × ν) :
    e ∈ (m.insert k v).2.entries ↔ e = (k, v) ∨ e ∈ m.entries ∧ e.1 ≠ k := by
  simp [insert, erase]

theorem mem_remove (m : Map κ ν) (k : κ) (e : κ × ν) :
    e ∈ (m.remove k).2.entries ↔ e ∈ m.entries ∧ e.1 ≠ k := by
  simp [remove, erase]

theorem mem_of_get {m : Map κ ν} {k : κ} {v : ν} (h : m.get k = some v) : (k, v) ∈ m.entries := by
  obtain ⟨es⟩ := m
  simp only [get] at h ⊢
  induction es with
  | nil => simp [find] at h
  | cons e es ih =>
    simp only [find] at h
    split at h
    · rename_i hk
      cases h
      exact List.mem_cons.mpr (.inl (by rw [← hk]))
    · exact List.mem_cons.mpr (.inr (ih h))

theorem get_of_mem {m : Map κ ν} {k : κ} {v : ν} (h : (k, v) ∈ m.entries) : m.get k ≠ none := by
  obtain ⟨es⟩ := m
  simp only [get] at h ⊢
  induction es with
  | nil => simp at h
  | cons e es ih =>
    simp only [find]
    split
    · simp
    · rename_i hk
      rcases List.mem_cons.mp h with h | h
      · rw [← h] at hk; exact absurd rfl hk
      · exact ih h

end Map

end Rsomeip
