import Verif.Spec.SharedMap
import Verif.Lemmas.Map

/-! # C65: shared maps are linearizable -/

namespace Rsomeip

open Rt Rt.SharedMap Spec.SharedMap

variable {κ ν : Type} [DecidableEq κ]

/-- The ideal map after some calls. -/
def replay (f : κ → Option ν) : List (Nat × Op κ ν × Option ν) → κ → Option ν
  | [] => f
  | (_, op, _) :: l => replay (ideal f op).2 l

theorem sequential_snoc (f : κ → Option ν) (l : List (Nat × Op κ ν × Option ν)) (i : Nat)
    (op : Op κ ν) (r : Option ν) : Sequential f (l ++ [(i, op, r)]) ↔
      Sequential f l ∧ r = (ideal (replay f l) op).1 := by
  induction l generalizing f with
  | nil => simp [Sequential, replay]
  | cons x l ih => simp only [List.cons_append, Sequential, replay, ih, and_assoc]

theorem replay_snoc (f : κ → Option ν) (l : List (Nat × Op κ ν × Option ν)) (i : Nat)
    (op : Op κ ν) (r : Option ν) : replay f (l ++ [(i, op, r)]) = (ideal (replay f l) op).2 := by
  induction l generalizing f with
  | nil => rfl
  | cons x l ih => simp only [List.cons_append, replay, ih]

theorem ideal_fst (f : κ → Option ν) (op : Op κ ν) : (ideal f op).1 = f op.key := by
  cases op <;> rfl

theorem ideal_effect (m : Map κ ν) (op : Op κ ν) :
    (ideal m.get op).2 = (effect m op).get := by
  cases op with
  | insert k v =>
    funext x
    simp only [ideal, effect, Map.get_insert]
    by_cases h : x = k
    · rw [if_pos h, if_pos h.symm]
    · rw [if_neg h, if_neg fun h' => h h'.symm]
  | get k => rfl
  | remove k =>
    funext x
    simp only [ideal, effect, Map.get_remove]
    by_cases h : x = k
    · rw [if_pos h, if_pos h.symm]
    · rw [if_neg h, if_neg fun h' => h h'.symm]

/-- The phase of a call fits the order of calls so far. -/
def Fits (tr : List (Action κ ν × Obs ν)) (s : State κ ν) (l : List (Nat × Op κ ν × Option ν))
    (i : Nat) : Option (Phase κ ν) → Prop
  | none => i ∉ l.map Prod.fst ∧ ∀ r, (.ret i, .value r) ∉ tr
  | some (.waiting op) => i ∉ l.map Prod.fst ∧ (.call i op, .none) ∈ tr
  | some (.locked op) => i ∉ l.map Prod.fst ∧ (.call i op, .none) ∈ tr ∧ s.owner = some i
  | some (.looked op old) => i ∉ l.map Prod.fst ∧ (.call i op, .none) ∈ tr ∧ s.owner = some i ∧
      old = s.map.get op.key
  | some (.changed op old) => (i, op, old) ∈ l ∧ s.owner = some i
  | some (.released old) => ∃ op, (i, op, old) ∈ l
  | some .returned => True

structure SharedInv (tr : List (Action κ ν × Obs ν)) (s : State κ ν)
    (l : List (Nat × Op κ ν × Option ν)) : Prop where
  seq : Sequential (fun _ => none) l
  replay : replay (fun _ => none) l = s.map.get
  nodup : (l.map Prod.fst).Nodup
  made : ∀ i op r, (i, op, r) ∈ l → (.call i op, .none) ∈ tr
  ret : ∀ i r, (.ret i, .value r) ∈ tr → ∃ op, (i, op, r) ∈ l
  order : ∀ t₁ t₂ i j r op o, tr = t₁ ++ t₂ → (.ret i, .value r) ∈ t₁ → (.call j op, o) ∈ t₂ →
      j ∈ l.map Prod.fst → Before l i j
  fits : ∀ i, Fits tr s l i (s.calls i)

theorem Fits.mono {tr tr' : List (Action κ ν × Obs ν)} {s s' : State κ ν}
    {l : List (Nat × Op κ ν × Option ν)} {i : Nat} {p : Option (Phase κ ν)} (h : Fits tr s l i p)
    (htr : ∀ x ∈ tr, x ∈ tr') (hret : p = none → ∀ r, (.ret i, .value r) ∈ tr' → (.ret i, .value r) ∈ tr)
    (ho : s.owner = some i → s'.owner = some i) (hm : s.owner = some i → s'.map = s.map) :
    Fits tr' s' l i p := by
  match p, h with
  | none, h => exact ⟨h.1, fun r hr => h.2 r (hret rfl r hr)⟩
  | some (.waiting _), h => exact ⟨h.1, htr _ h.2⟩
  | some (.locked _), h => exact ⟨h.1, htr _ h.2.1, ho h.2.2⟩
  | some (.looked _ _), h => exact ⟨h.1, htr _ h.2.1, ho h.2.2.1, by rw [hm h.2.2.1]; exact h.2.2.2⟩
  | some (.changed _ _), h => exact ⟨h.1, ho h.2⟩
  | some (.released _), h => exact h
  | some .returned, _ => trivial

/-- A step that is not the change of the map. -/
theorem SharedInv.quiet {tr : List (Action κ ν × Obs ν)} {s s' : State κ ν}
    {l : List (Nat × Op κ ν × Option ν)} (h : SharedInv tr s l) {x : Action κ ν × Obs ν}
    (hmap : s'.map = s.map) (hret : ∀ i r, x = (.ret i, .value r) → ∃ op, (i, op, r) ∈ l)
    (hcall : ∀ j op o, x = (.call j op, o) → s.calls j = none)
    (hf : ∀ i, Fits (tr ++ [x]) s' l i (s'.calls i)) : SharedInv (tr ++ [x]) s' l where
  seq := h.seq
  replay := by rw [hmap]; exact h.replay
  nodup := h.nodup
  made i op r hi := List.mem_append_left _ (h.made i op r hi)
  ret i r hr := by
    rcases List.mem_append.mp hr with hr | hr
    · exact h.ret i r hr
    · exact hret i r (List.mem_singleton.mp hr).symm
  order := by
    intro t₁ t₂ i j r op o ht h1 h2 hj
    rcases List.eq_nil_or_concat t₂ with rfl | ⟨t₂', y, rfl⟩
    · cases h2
    · rw [List.concat_eq_append, ← List.append_assoc] at ht
      obtain ⟨ht1, ht2⟩ := List.append_inj' ht rfl
      cases ht2
      rw [List.concat_eq_append] at h2
      rcases List.mem_append.mp h2 with h2 | h2
      · exact h.order t₁ t₂' i j r op o ht1 h1 h2 hj
      · have hc := hcall j op o (List.mem_singleton.mp h2).symm
        have := h.fits j
        rw [hc] at this
        exact absurd hj this.1
  fits := hf

theorem shared_step {tr : List (Action κ ν × Obs ν)} {s s' : State κ ν}
    {l : List (Nat × Op κ ν × Option ν)} (h : SharedInv tr s l) {a : Action κ ν} {o : Obs ν}
    (hs : step s a = some (s', o)) : ∃ l', SharedInv (tr ++ [(a, o)]) s' l' := by
  have htr : ∀ x ∈ tr, x ∈ tr ++ [(a, o)] := fun x hx => List.mem_append_left _ hx
  have hself : (a, o) ∈ tr ++ [(a, o)] := List.mem_append_right _ (List.mem_singleton.mpr rfl)
  cases a with
  | call i op =>
    simp only [step] at hs
    split at hs
    · rename_i hi
      cases hs
      refine ⟨l, h.quiet rfl (fun _ _ h => by cases h) (fun j op o h => by cases h; exact hi) ?_⟩
      intro j
      by_cases hj : j = i
      · subst hj
        have := h.fits j
        rw [hi] at this
        simp only [State.set, if_pos]
        exact ⟨this.1, hself⟩
      · simp only [State.set, if_neg hj]
        refine (h.fits j).mono htr (fun _ r hr => ?_) id (fun _ => rfl)
        rcases List.mem_append.mp hr with hr | hr
        · exact hr
        · cases List.mem_singleton.mp hr
    · cases hs
  | lock i =>
    simp only [step] at hs
    split at hs
    · rename_i op hi ho
      cases hs
      refine ⟨l, h.quiet rfl (fun _ _ h => by cases h) (fun j op o h => by cases h) ?_⟩
      intro j
      by_cases hj : j = i
      · subst hj
        have := h.fits j
        rw [hi] at this
        simp only [State.set, if_pos]
        exact ⟨this.1, htr _ this.2, rfl⟩
      · simp only [State.set, if_neg hj]
        refine (h.fits j).mono htr (fun _ r hr => ?_) (fun h => ?_) (fun _ => rfl)
        · rcases List.mem_append.mp hr with hr | hr
          · exact hr
          · cases List.mem_singleton.mp hr
        · rw [ho] at h; cases h
    · cases hs
  | look i =>
    simp only [step] at hs
    split at hs
    · rename_i op hi
      cases hs
      refine ⟨l, h.quiet rfl (fun _ _ h => by cases h) (fun j op o h => by cases h) ?_⟩
      intro j
      by_cases hj : j = i
      · subst hj
        have := h.fits j
        rw [hi] at this
        simp only [State.set, if_pos]
        exact ⟨this.1, htr _ this.2.1, this.2.2, rfl⟩
      · simp only [State.set, if_neg hj]
        refine (h.fits j).mono htr (fun _ r hr => ?_) id (fun _ => rfl)
        rcases List.mem_append.mp hr with hr | hr
        · exact hr
        · cases List.mem_singleton.mp hr
    · cases hs
  | change i =>
    simp only [step] at hs
    split at hs
    · rename_i op old hi
      cases hs
      have hfi := h.fits i
      rw [hi] at hfi
      obtain ⟨h1, h2, h3, h4⟩ := hfi
      refine ⟨l ++ [(i, op, old)], ?_, ?_, ?_, ?_, ?_, ?_, ?_⟩
      · refine (sequential_snoc ..).mpr ⟨h.seq, ?_⟩
        rw [ideal_fst, h.replay, h4]
      · rw [replay_snoc, h.replay, ideal_effect]
      · rw [List.map_append, List.nodup_append]
        refine ⟨h.nodup, by simp, ?_⟩
        intro x hx y hy hxy
        simp only [List.map_cons, List.map_nil, List.mem_singleton] at hy
        subst hy hxy
        exact h1 hx
      · intro j op' r hj
        rcases List.mem_append.mp hj with hj | hj
        · exact htr _ (h.made j op' r hj)
        · cases List.mem_singleton.mp hj
          exact htr _ h2
      · intro j r hr
        rcases List.mem_append.mp hr with hr | hr
        · obtain ⟨op', hop⟩ := h.ret j r hr
          exact ⟨op', List.mem_append_left _ hop⟩
        · cases List.mem_singleton.mp hr
      · intro t₁ t₂ j k r op' o ht hj hk hkl
        rcases List.eq_nil_or_concat t₂ with rfl | ⟨t₂', y, rfl⟩
        · cases hk
        · rw [List.concat_eq_append, ← List.append_assoc] at ht
          obtain ⟨ht1, ht2⟩ := List.append_inj' ht rfl
          cases ht2
          rw [List.concat_eq_append] at hk
          rcases List.mem_append.mp hk with hk | hk
          · by_cases hkl' : k ∈ l.map Prod.fst
            · obtain ⟨l₁, l₂, he, h5, h6⟩ := h.order t₁ t₂' j k r op' o ht1 hj hk hkl'
              refine ⟨l₁, l₂ ++ [(i, op, old)], by rw [he, List.append_assoc], h5, ?_⟩
              rw [List.map_append]
              exact List.mem_append_left _ h6
            · obtain ⟨op', hop⟩ := h.ret j r (by rw [ht1]; exact List.mem_append_left _ hj)
              refine ⟨l, [(i, op, old)], rfl, List.mem_map.mpr ⟨_, hop, rfl⟩, ?_⟩
              rw [List.map_append] at hkl
              exact (List.mem_append.mp hkl).resolve_left hkl'
          · cases List.mem_singleton.mp hk
      · intro j
        by_cases hj : j = i
        · subst hj
          simp only [State.set, if_pos]
          exact ⟨List.mem_append_right _ (List.mem_singleton.mpr rfl), h3⟩
        · simp only [State.set, if_neg hj]
          have hfj := h.fits j
          have hno : j ∉ l.map Prod.fst → j ∉ (l ++ [(i, op, old)]).map Prod.fst := by
            intro hn hm
            rw [List.map_append] at hm
            rcases List.mem_append.mp hm with hm | hm
            · exact hn hm
            · exact hj (List.mem_singleton.mp hm)
          have hown : s.owner ≠ some j := fun h => hj (by rw [h3] at h; cases h; rfl)
          match hp : s.calls j with
          | none =>
            rw [hp] at hfj
            refine ⟨hno hfj.1, fun r hr => ?_⟩
            rcases List.mem_append.mp hr with hr | hr
            · exact hfj.2 r hr
            · cases List.mem_singleton.mp hr
          | some (.waiting _) => rw [hp] at hfj; exact ⟨hno hfj.1, htr _ hfj.2⟩
          | some (.locked _) => rw [hp] at hfj; exact absurd hfj.2.2 hown
          | some (.looked _ _) => rw [hp] at hfj; exact absurd hfj.2.2.1 hown
          | some (.changed _ _) => rw [hp] at hfj; exact absurd hfj.2 hown
          | some (.released _) =>
            rw [hp] at hfj
            obtain ⟨op', hop⟩ := hfj
            exact ⟨op', List.mem_append_left _ hop⟩
          | some .returned => trivial
    · cases hs
  | unlock i =>
    simp only [step] at hs
    split at hs
    · rename_i op old hi
      cases hs
      have hfi := h.fits i
      rw [hi] at hfi
      refine ⟨l, h.quiet rfl (fun _ _ h => by cases h) (fun j op o h => by cases h) ?_⟩
      intro j
      by_cases hj : j = i
      · subst hj
        simp only [State.set, if_pos]
        exact ⟨op, hfi.1⟩
      · simp only [State.set, if_neg hj]
        refine (h.fits j).mono htr (fun _ r hr => ?_) (fun h => ?_) (fun _ => rfl)
        · rcases List.mem_append.mp hr with hr | hr
          · exact hr
          · cases List.mem_singleton.mp hr
        · rw [hfi.2] at h; cases h; exact absurd rfl hj
    · cases hs
  | ret i =>
    simp only [step] at hs
    split at hs
    · rename_i old hi
      cases hs
      have hfi := h.fits i
      rw [hi] at hfi
      refine ⟨l, h.quiet rfl (fun _ _ h => by cases h; exact hfi) (fun j op o h => by cases h) ?_⟩
      intro j
      by_cases hj : j = i
      · subst hj
        simp only [State.set, if_pos]
        trivial
      · simp only [State.set, if_neg hj]
        refine (h.fits j).mono htr (fun _ r hr => ?_) id (fun _ => rfl)
        rcases List.mem_append.mp hr with hr | hr
        · exact hr
        · cases List.mem_singleton.mp hr
          exact absurd rfl hj
    · cases hs

theorem shared_inv {tr : List (Action κ ν × Obs ν)} {s : State κ ν} (e : Exec step init tr s) :
    ∃ l, SharedInv tr s l := by
  induction e with
  | nil =>
    refine ⟨[], trivial, rfl, List.nodup_nil, nofun, nofun, ?_, fun i => ⟨nofun, nofun⟩⟩
    intro t₁ t₂ i j r op o _ _ _ h
    cases h
  | snoc _ hs ih =>
    obtain ⟨l, h⟩ := ih
    exact shared_step h hs

/-- **C65.** However the steps of any number of threads interleave, every history of calls is
linearizable. -/
theorem C65_linearizable {tr : List (Action κ ν × Obs ν)} {s : State κ ν}
    (e : Exec step init tr s) : Linearizable tr := by
  obtain ⟨l, h⟩ := shared_inv e
  exact ⟨l, h.seq, h.nodup, h.made, h.ret, h.order⟩

/-- **C65.** Nobody is stuck: while some call has not returned, some call can take a step. -/
theorem C65_progress {tr : List (Action κ ν × Obs ν)} {s : State κ ν} (e : Exec step init tr s)
    (i : Nat) (p : Phase κ ν) (hi : s.calls i = some p) (hp : p ≠ .returned) :
    ∃ a s' o, step s a = some (s', o) ∧ ∀ j op, a ≠ .call j op := by
  suffices h : (∃ tr, Exec step init tr s) ∧ ∀ j, s.owner = some j → ∃ op, s.calls j = some (.locked op) ∨
      ∃ old, s.calls j = some (.looked op old) ∨ s.calls j = some (.changed op old) by
    obtain ⟨-, h⟩ := h
    cases ho : s.owner with
    | some j =>
      obtain ⟨op, h | ⟨old, h | h⟩⟩ := h j ho
      · exact ⟨.look j, _, _, by simp only [step, h]; rfl, nofun⟩
      · exact ⟨.change j, _, _, by simp only [step, h]; rfl, nofun⟩
      · exact ⟨.unlock j, _, _, by simp only [step, h]; rfl, nofun⟩
    | none =>
      cases p with
      | waiting op => exact ⟨.lock i, _, _, by simp only [step, hi, ho]; rfl, nofun⟩
      | locked op => exact ⟨.look i, _, _, by simp only [step, hi]; rfl, nofun⟩
      | looked op old => exact ⟨.change i, _, _, by simp only [step, hi]; rfl, nofun⟩
      | changed op old => exact ⟨.unlock i, _, _, by simp only [step, hi]; rfl, nofun⟩
      | released old => exact ⟨.ret i, _, _, by simp only [step, hi]; rfl, nofun⟩
      | returned => exact absurd rfl hp
  refine ⟨⟨tr, e⟩, ?_⟩
  clear hi hp
  induction e with
  | nil => intro j h; cases h
  | snoc _ hs ih =>
    rename_i a _ _
    intro j hj
    cases a <;> simp only [step] at hs <;> split at hs <;> cases hs
    all_goals first
      | grind [State.set]
      | (cases hj; exact ⟨_, .inl (if_pos rfl)⟩)

/-- Two threads: the second call waits for the first one, and sees what it stored. -/
def sampleShared : List (Action Nat Nat) :=
  [.call 0 (.insert 5 1), .call 1 (.insert 5 2), .lock 1, .look 1, .change 1, .unlock 1, .lock 0,
    .look 0, .change 0, .unlock 0, .ret 0, .call 2 (.get 5), .lock 2, .look 2, .change 2, .unlock 2,
    .ret 2, .ret 1]

example : ((perform step init sampleShared).map fun x =>
    x.1.filter fun y => y.2 ≠ .none) = some [(.ret 0, .value (some 2)), (.ret 2, .value (some 1)),
      (.ret 1, .value none)] := by decide +kernel

end Rsomeip
