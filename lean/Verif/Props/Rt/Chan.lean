import Verif.Spec.Chan

/-! # C105: calls that wait for the same connection take turns -/

namespace Rsomeip

open Rt Rt.Chan Spec.Chan

variable {α : Type}

theorem leave_some {k i : Nat} {v : α} {l r : List (Nat × α)} (h : leave k l = some (i, v, r)) :
    ∃ l₁ l₂, l = l₁ ++ (k, v) :: l₂ ∧ l₁.length = i ∧ r = l₁ ++ l₂ ∧ ∀ w, (k, w) ∉ l₁ := by
  induction l generalizing i v r with
  | nil => cases h
  | cons x l ih =>
    obtain ⟨j, w⟩ := x
    simp only [leave] at h
    split at h
    · next hj =>
      subst hj
      cases h
      exact ⟨[], l, rfl, rfl, rfl, by simp⟩
    · next hj =>
      split at h
      · cases h
      · next i' w' r' h' =>
        cases h
        obtain ⟨l₁, l₂, rfl, rfl, rfl, h4⟩ := ih h'
        refine ⟨(j, w) :: l₁, l₂, rfl, rfl, rfl, fun u hu => ?_⟩
        rcases List.mem_cons.mp hu with hu | hu
        · exact hj (Prod.mk.inj hu).1.symm
        · exact h4 u hu

theorem leave_none {k : Nat} {l : List (Nat × α)} (h : leave k l = none) (v : α) : (k, v) ∉ l := by
  induction l with
  | nil => simp
  | cons x l ih =>
    obtain ⟨j, w⟩ := x
    simp only [leave] at h
    split at h
    · cases h
    · next hj =>
      split at h
      · next h' =>
        intro hm
        rcases List.mem_cons.mp hm with hm | hm
        · exact hj (Prod.mk.inj hm).1.symm
        · exact ih h' hm
      · cases h

/-- All ways a step can go. -/
inductive Chan.Move (s : State α) : Action α → Obs α → State α → Prop where
  | send (k v) (hn : ∀ w, (k, w) ∉ s.line) (hr : s.rx = true)
      (hq : s.queue.length + s.line.length < s.cap) :
      Move s (.send k v) (.sent v) { s with queue := s.queue ++ [v] }
  | wait (k v) (hn : ∀ w, (k, w) ∉ s.line) (hr : s.rx = true)
      (hq : ¬ s.queue.length + s.line.length < s.cap) :
      Move s (.send k v) .waits { s with line := s.line ++ [(k, v)] }
  | fail (k v) (hn : ∀ w, (k, w) ∉ s.line) (hr : s.rx = false) : Move s (.send k v) .failed s
  | go (k v l₁ l₂) (hl : s.line = l₁ ++ (k, v) :: l₂) (hn : ∀ w, (k, w) ∉ l₁) (hr : s.rx = true)
      (hq : s.queue.length + l₁.length < s.cap) :
      Move s (.poll k) (.sent v) { s with queue := s.queue ++ [v], line := l₁ ++ l₂ }
  | stay (k v l₁ l₂) (hl : s.line = l₁ ++ (k, v) :: l₂) (hn : ∀ w, (k, w) ∉ l₁) (hr : s.rx = true)
      (hq : ¬ s.queue.length + l₁.length < s.cap) : Move s (.poll k) .waits s
  | lose (k v l₁ l₂) (hl : s.line = l₁ ++ (k, v) :: l₂) (hn : ∀ w, (k, w) ∉ l₁) (hr : s.rx = false) :
      Move s (.poll k) .failed { s with line := l₁ ++ l₂ }
  | cancel (k v l₁ l₂) (hl : s.line = l₁ ++ (k, v) :: l₂) (hn : ∀ w, (k, w) ∉ l₁) :
      Move s (.cancel k) .none { s with line := l₁ ++ l₂ }
  | recv (v q) (hq : s.queue = v :: q) : Move s .recv (.got v) { s with queue := q }
  | close (hr : s.rx = true) : Move s .close .none { s with rx := false, queue := [] }

theorem Chan.move {s s' : State α} {a : Action α} {o : Obs α} (h : step s a = some (s', o)) :
    Chan.Move s a o s' := by
  cases a with
  | send k v =>
    simp only [step] at h
    split at h
    · cases h
    · next hl =>
      split at h
      · split at h
        · cases h; exact .send k v (leave_none hl) ‹_› ‹_›
        · cases h; exact .wait k v (leave_none hl) ‹_› ‹_›
      · cases h; exact .fail k v (leave_none hl) (by simp_all)
  | poll k =>
    simp only [step] at h
    split at h
    · cases h
    · next i v r hl =>
      obtain ⟨l₁, l₂, h1, rfl, rfl, h4⟩ := leave_some hl
      split at h
      · split at h
        · cases h; exact .go k v l₁ l₂ h1 h4 ‹_› ‹_›
        · cases h; exact .stay k v l₁ l₂ h1 h4 ‹_› ‹_›
      · cases h; exact .lose k v l₁ l₂ h1 h4 (by simp_all)
  | cancel k =>
    simp only [step] at h
    split at h
    · cases h
    · next i v r hl =>
      obtain ⟨l₁, l₂, h1, rfl, rfl, h4⟩ := leave_some hl
      cases h
      exact .cancel k v l₁ l₂ h1 h4
  | recv =>
    simp only [step] at h
    split at h
    · cases h; exact .recv _ _ ‹_›
    · cases h
  | close =>
    simp only [step] at h
    split at h
    · cases h; exact .close ‹_›
    · cases h

theorem leave_mem {k i : Nat} {v : α} {l₁ l₂ : List (Nat × α)} (h : ∀ w, (k, w) ∉ l₁)
    (hi : l₁.length = i) : leave k (l₁ ++ (k, v) :: l₂) = some (i, v, l₁ ++ l₂) := by
  induction l₁ generalizing i with
  | nil => subst hi; simp [leave]
  | cons x l₁ ih =>
    obtain ⟨j, w⟩ := x
    have hj : j ≠ k := fun hj => h w (by simp [hj])
    subst hi
    rw [List.cons_append, leave, if_neg hj, ih (fun w hw => h w (List.mem_cons_of_mem _ hw)) rfl]
    rfl

/-- What holds at all times. -/
structure Chan.Inv (tr : Trace α) (n : Nat) (s : State α) : Prop where
  cap : s.cap = n
  room : s.queue.length ≤ n
  /-- No caller waits twice. -/
  once : (s.line.map Prod.fst).Nodup
  rest : s.rx = true → (done tr).map Prod.snd = taken tr ++ s.queue
  gone : s.rx = false → s.queue = [] ∧ taken tr <+: (done tr).map Prod.snd

theorem Chan.inv {n : Nat} {tr : Trace α} {s : State α} (e : Exec step (init n) tr s) :
    Chan.Inv tr n s := by
  induction e with
  | nil => exact ⟨rfl, Nat.zero_le _, by simp [init], fun _ => rfl, nofun⟩
  | @snoc tr s s' a o e hs ih =>
    obtain ⟨h1, h2, h3, h4, h5⟩ := ih
    cases Chan.move hs with
    | send k v hn hr hq =>
      refine ⟨h1, ?_, h3, ?_, ?_⟩
      · simp only [List.length_append, List.length_singleton]; omega
      · intro _
        simp [done, taken, List.filterMap_append] at h4 ⊢
        rw [h4 hr]
        simp
      · intro h; rw [hr] at h; cases h
    | wait k v hn hr hq =>
      refine ⟨h1, h2, ?_, ?_, ?_⟩
      · rw [List.map_append, List.nodup_append]
        refine ⟨h3, by simp, ?_⟩
        rintro x hx y hy rfl
        simp only [List.map_cons, List.map_nil, List.mem_singleton] at hy
        obtain ⟨⟨j, w⟩, hw, rfl⟩ := List.mem_map.mp hx
        simp only at hy
        subst hy
        exact hn w hw
      · intro hr; simpa [done, taken, List.filterMap_append] using h4 hr
      · intro hr; simpa [done, taken, List.filterMap_append] using h5 hr
    | fail k v hn hr =>
      refine ⟨h1, h2, h3, ?_, ?_⟩
      · intro hr; simpa [done, taken, List.filterMap_append] using h4 hr
      · intro hr; simpa [done, taken, List.filterMap_append] using h5 hr
    | go k v l₁ l₂ hl hn hr hq =>
      refine ⟨h1, ?_, ?_, ?_, ?_⟩
      · simp only [List.length_append, List.length_singleton]; omega
      · rw [hl] at h3
        simp only [List.map_append, List.map_cons] at h3 ⊢
        exact h3.sublist (List.Sublist.append_left (List.sublist_cons_self _ _) _)
      · intro _
        simp [done, taken, List.filterMap_append] at h4 ⊢
        rw [h4 hr]
        simp
      · intro h; rw [hr] at h; cases h
    | stay k v l₁ l₂ hl hn hr hq =>
      refine ⟨h1, h2, h3, ?_, ?_⟩
      · intro hr; simpa [done, taken, List.filterMap_append] using h4 hr
      · intro hr; simpa [done, taken, List.filterMap_append] using h5 hr
    | lose k v l₁ l₂ hl hn hr =>
      refine ⟨h1, h2, ?_, ?_, ?_⟩
      · rw [hl] at h3
        simp only [List.map_append, List.map_cons] at h3 ⊢
        exact h3.sublist (List.Sublist.append_left (List.sublist_cons_self _ _) _)
      · intro hr; simpa [done, taken, List.filterMap_append] using h4 hr
      · intro hr; simpa [done, taken, List.filterMap_append] using h5 hr
    | cancel k v l₁ l₂ hl hn =>
      refine ⟨h1, h2, ?_, ?_, ?_⟩
      · rw [hl] at h3
        simp only [List.map_append, List.map_cons] at h3 ⊢
        exact h3.sublist (List.Sublist.append_left (List.sublist_cons_self _ _) _)
      · intro hr; simpa [done, taken, List.filterMap_append] using h4 hr
      · intro hr; simpa [done, taken, List.filterMap_append] using h5 hr
    | recv v q hq =>
      refine ⟨h1, by rw [hq] at h2; simp at h2; show q.length ≤ n; omega, h3, ?_, ?_⟩
      · intro hr
        have := h4 hr
        rw [hq] at this
        simpa [done, taken, List.filterMap_append] using this
      · intro hr
        have := (h5 hr).1
        rw [hq] at this
        cases this
    | close hr =>
      refine ⟨h1, Nat.zero_le _, h3, nofun, fun _ => ⟨rfl, ?_⟩⟩
      have := h4 hr
      simp only [done, taken, List.filterMap_append, List.map_append] at this ⊢
      simp [this]

/-- **C105.** Messages reach the receiving task in the order in which the calls returned `Ok`, each
once, as long as the task exists; and never more of them lie in the channel than it has room for. -/
theorem C105_order {n : Nat} {tr : Trace α} {s : State α} (e : Exec step (init n) tr s) :
    taken tr <+: (done tr).map Prod.snd ∧ s.queue.length ≤ n ∧
    (s.rx = true → (done tr).map Prod.snd = taken tr ++ s.queue) := by
  have h := Chan.inv e
  refine ⟨?_, h.room, h.rest⟩
  cases hr : s.rx
  · exact (h.gone hr).2
  · rw [h.rest hr]
    exact List.prefix_append _ _

/-- **C105.** What a step does to the messages in the channel is what a plain bounded queue does: a
call that returns `Ok` puts its message at the end, if there is room; the receiving task takes from the
front; nothing else changes them before the receiver goes. -/
theorem C105_queue {s s' : State α} {a : Action α} {o : Obs α} (h : step s a = some (s', o)) :
    match o with
    | .sent v => s.rx = true ∧ s.queue.length < s.cap ∧ s'.queue = s.queue ++ [v]
    | .got v => s.queue = v :: s'.queue
    | _ => a = .close ∧ s'.rx = false ∨ s'.queue = s.queue ∧ s'.rx = s.rx := by
  cases Chan.move h <;> simp_all <;> omega

/-- What the calls that wait and those that have returned have to do with the order of calls. -/
theorem C105_line {tr : Trace α} {s : State α} (e : Exec step (init 1) tr s) :
    (done tr ++ s.line).Sublist (calls tr) := by
  induction e with
  | nil => exact List.Sublist.refl _
  | @snoc tr s s' a o e hs ih =>
    have hi := Chan.inv e
    cases Chan.move hs with
    | send k v hn hr hq =>
      rw [hi.cap] at hq
      have hl : s.line = [] := List.length_eq_zero_iff.mp (by omega)
      rw [hl, List.append_nil] at ih
      simpa [done, calls, List.filterMap_append, hl] using ih.append (List.Sublist.refl [(k, v)])
    | wait k v hn hr hq =>
      simpa [done, calls, List.filterMap_append] using ih.append (List.Sublist.refl [(k, v)])
    | fail k v hn hr =>
      have := ih.trans (List.sublist_append_left (calls tr) [(k, v)])
      simpa [done, calls, List.filterMap_append] using this
    | go k v l₁ l₂ hl hn hr hq =>
      rw [hi.cap] at hq
      have h1 : l₁ = [] := List.length_eq_zero_iff.mp (by omega)
      subst h1
      rw [hl] at ih
      simpa [done, calls, List.filterMap_append] using ih
    | stay k v l₁ l₂ hl hn hr hq => simpa [done, calls, List.filterMap_append] using ih
    | lose k v l₁ l₂ hl hn hr =>
      rw [hl] at ih
      have : (done tr ++ (l₁ ++ l₂)).Sublist (calls tr) := List.Sublist.trans
        (List.Sublist.append_left (List.Sublist.append_left (List.sublist_cons_self _ _) _) _) ih
      simpa [done, calls, List.filterMap_append] using this
    | cancel k v l₁ l₂ hl hn =>
      rw [hl] at ih
      have : (done tr ++ (l₁ ++ l₂)).Sublist (calls tr) := List.Sublist.trans
        (List.Sublist.append_left (List.Sublist.append_left (List.sublist_cons_self _ _) _) _) ih
      simpa [done, calls, List.filterMap_append] using this
    | recv v q hq => simpa [done, calls, List.filterMap_append] using ih
    | close hr => simpa [done, calls, List.filterMap_append] using ih

/-- **C105.** Calls of `send` on one connection return `Ok` in the order in which they were made: none
overtakes another. -/
theorem C105_turns {tr : Trace α} {s : State α} (e : Exec step (init 1) tr s) :
    (done tr).Sublist (calls tr) :=
  (List.sublist_append_left _ _).trans (C105_line e)

/-- **C105.** This is special to the queue of a connection, which has room for one message: of the
calls that wait for room in the queue of the endpoint task, which has room for eight, one can overtake
another. -/
theorem C105_overtakes (v w : α) : ∃ (tr : Trace α) (s : State α),
    Exec step (init 8) tr s ∧ ¬ (done tr).Sublist (calls tr) := by
  refine ⟨_, _, exec_of_perform (as := (List.range 8).map (fun k => .send k v) ++
    [.send 8 v, .send 9 w, .recv, .recv, .poll 9, .poll 8]) rfl, ?_⟩
  intro h
  have := h.eq_of_length rfl
  simp [done, calls] at this

/-- **C105.** While a call waits for a connection and is not polled, only calls that have waited longer
return `Ok`. -/
theorem C105_bypass {s s' : State α} {t : Trace α} {k : Nat} {v : α} {l₁ l₂ : List (Nat × α)}
    (hc : s.cap = 1) (hl : s.line = l₁ ++ (k, v) :: l₂) (e : Exec step s t s') (hi : Ignores k t) :
    (done t).Sublist l₁ ∧ ∃ i, Waits s' k i ∧ i + (done t).length ≤ l₁.length := by
  have key : s'.cap = 1 ∧ ∃ m₁ m₂, s'.line = m₁ ++ (k, v) :: m₂ ∧ (done t ++ m₁).Sublist l₁ := by
    induction e with
    | nil => exact ⟨hc, l₁, l₂, hl, List.Sublist.refl _⟩
    | @snoc t s₁ s₂ a o e hs ih =>
      obtain ⟨h1, m₁, m₂, h2, h3⟩ := ih fun x hx => hi x (List.mem_append_left _ hx)
      have h4 := hi (a, o) (by simp)
      have key2 : ∀ {j w n₁ n₂}, j ≠ k → s₁.line = n₁ ++ (j, w) :: n₂ →
          (∃ m₃, n₁ ++ n₂ = m₃ ++ (k, v) :: m₂ ∧ m₁ = n₁ ++ (j, w) :: (m₃.drop n₁.length) ∧
            m₃ = n₁ ++ m₃.drop n₁.length) ∨
          ∃ m₃, n₁ ++ n₂ = m₁ ++ (k, v) :: m₃ ∧ m₁.length < n₁.length := by
        intro j w n₁ n₂ hj hn
        rw [h2] at hn
        rcases List.append_eq_append_iff.mp hn with ⟨x, hx1, hx2⟩ | ⟨x, hx1, hx2⟩
        · cases x with
          | nil => simp at hx2; exact absurd hx2.1.1.symm hj
          | cons y x =>
            simp at hx2
            obtain ⟨rfl, rfl⟩ := hx2
            exact .inr ⟨x ++ n₂, by simp [hx1], by simp [hx1]⟩
        · cases x with
          | nil => simp at hx2; exact absurd hx2.1.1 hj
          | cons y x =>
            simp at hx2
            obtain ⟨rfl, rfl⟩ := hx2
            exact .inl ⟨n₁ ++ x, by simp, by simp [hx1], by simp⟩
      cases Chan.move hs with
      | send j w hn hr hq =>
        rw [h1, h2] at hq
        simp at hq
      | wait j w hn hr hq =>
        exact ⟨h1, m₁, m₂ ++ [(j, w)], by simp [h2], by simpa [done, List.filterMap_append] using h3⟩
      | fail j w hn hr => exact ⟨h1, m₁, m₂, h2, by simpa [done, List.filterMap_append] using h3⟩
      | go j w n₁ n₂ hn hn' hr hq =>
        have hj : j ≠ k := by rintro rfl; exact h4.1 rfl
        rw [h1] at hq
        have : n₁ = [] := List.length_eq_zero_iff.mp (by omega)
        subst this
        rcases key2 hj hn with ⟨m₃, h5, h6, h7⟩ | ⟨m₃, h5, h6⟩
        · simp at h6
          refine ⟨h1, m₃, m₂, h5, ?_⟩
          rw [h6] at h3
          simpa [done, List.filterMap_append] using h3
        · simp at h6
      | stay j w n₁ n₂ hn hn' hr hq =>
        exact ⟨h1, m₁, m₂, h2, by simpa [done, List.filterMap_append] using h3⟩
      | lose j w n₁ n₂ hn hn' hr =>
        have hj : j ≠ k := by rintro rfl; exact h4.1 rfl
        rcases key2 hj hn with ⟨m₃, h5, h6, h7⟩ | ⟨m₃, h5, h6⟩
        · refine ⟨h1, m₃, m₂, h5, ?_⟩
          have : (done t ++ m₃).Sublist l₁ := by
            refine List.Sublist.trans (List.Sublist.append_left ?_ _) h3
            rw [h6, h7]
            simp
          simpa [done, List.filterMap_append] using this
        · exact ⟨h1, m₁, m₃, h5, by simpa [done, List.filterMap_append] using h3⟩
      | cancel j w n₁ n₂ hn hn' =>
        have hj : j ≠ k := by rintro rfl; exact h4.2.1 rfl
        rcases key2 hj hn with ⟨m₃, h5, h6, h7⟩ | ⟨m₃, h5, h6⟩
        · refine ⟨h1, m₃, m₂, h5, ?_⟩
          have : (done t ++ m₃).Sublist l₁ := by
            refine List.Sublist.trans (List.Sublist.append_left ?_ _) h3
            rw [h6, h7]
            simp
          simpa [done, List.filterMap_append] using this
        · exact ⟨h1, m₁, m₃, h5, by simpa [done, List.filterMap_append] using h3⟩
      | recv w q hq => exact ⟨h1, m₁, m₂, h2, by simpa [done, List.filterMap_append] using h3⟩
      | close hr => exact absurd rfl h4.2.2
  obtain ⟨-, m₁, m₂, h2, h3⟩ := key
  refine ⟨(List.sublist_append_left _ _).trans h3, m₁.length, ⟨v, m₁, m₂, h2, rfl⟩, ?_⟩
  have := h3.length_le
  rw [List.length_append] at this
  omega

/-- **C105, the other side.** A call that is first in line and is neither polled nor dropped keeps all
others from sending: the queue can be empty and the receiving task idle, and still no call returns
`Ok`, whatever else happens. -/
theorem C105_stalls (v w : α) : ∃ (tr : Trace α) (s : State α), Exec step (init 1) tr s ∧
    s.queue = [] ∧ s.rx = true ∧
    ∀ t s', Exec step s t s' → Ignores 1 t → done t = [] := by
  refine ⟨_, _, exec_of_perform (as := [.send 0 v, .send 1 w, .recv]) rfl, rfl, rfl, ?_⟩
  intro t s' e hi
  exact List.sublist_nil.mp (C105_bypass (l₁ := []) rfl rfl e hi).1

/-- **C105.** After a call has been dropped its message is never sent. -/
theorem C105_given_up {n : Nat} {t u : Trace α} {k : Nat} {o : Obs α} {s : State α}
    (e : Exec step (init n) (t ++ (.cancel k, o) :: u) s) (hn : ∀ v o, (.send k v, o) ∉ u) (v : α) :
    (k, v) ∉ done u := by
  rw [← List.singleton_append, ← List.append_assoc] at e
  obtain ⟨s₂, e₁, e₂⟩ := e.split
  obtain ⟨s₁, e₀, hs⟩ := e₁.last
  have h0 : ∀ w, (k, w) ∉ s₂.line := by
    have hi := (Chan.inv e₀).once
    cases Chan.move hs with
    | cancel _ v' l₁ l₂ hl hn' =>
      intro w hw
      rw [hl] at hi
      have hp : ((k, v') :: (l₁ ++ l₂)).map Prod.fst |>.Nodup := by
        refine List.Perm.nodup ?_ hi
        exact (List.perm_middle).map _
      rw [List.map_cons, List.nodup_cons] at hp
      exact hp.1 (List.mem_map.mpr ⟨_, hw, rfl⟩)
  have key : (∀ w, (k, w) ∉ s.line) ∧ ∀ v, (k, v) ∉ done u := by
    clear e e₁ e₀ hs
    induction e₂ with
    | nil => exact ⟨h0, by simp [done]⟩
    | @snoc u s₁ s' a o e hs ih =>
      obtain ⟨h1, h2⟩ := ih fun v o hv => hn v o (List.mem_append_left _ hv)
      have h3 : ∀ v, a ≠ .send k v := by rintro v rfl; exact hn v o (by simp)
      cases Chan.move hs with
      | send j w => refine ⟨h1, ?_⟩; simp [done, List.filterMap_append] at h2 h3 ⊢; grind
      | wait j w => refine ⟨?_, ?_⟩ <;> simp [done, List.filterMap_append] at h2 h3 ⊢ <;> grind
      | fail j w => refine ⟨h1, ?_⟩; simpa [done, List.filterMap_append] using h2
      | go j w l₁ l₂ hl =>
        have hj : j ≠ k := by rintro rfl; exact h1 w (by simp [hl])
        rw [hl] at h1
        refine ⟨?_, ?_⟩ <;> simp [done, List.filterMap_append] at h1 h2 ⊢ <;> grind
      | stay => refine ⟨h1, ?_⟩; simpa [done, List.filterMap_append] using h2
      | lose j w l₁ l₂ hl =>
        rw [hl] at h1
        refine ⟨?_, ?_⟩ <;> simp [done, List.filterMap_append] at h1 h2 ⊢ <;> grind
      | cancel j w l₁ l₂ hl =>
        rw [hl] at h1
        refine ⟨?_, ?_⟩ <;> simp [done, List.filterMap_append] at h1 h2 ⊢ <;> grind
      | recv => refine ⟨h1, ?_⟩; simpa [done, List.filterMap_append] using h2
      | close => refine ⟨h1, ?_⟩; simpa [done, List.filterMap_append] using h2
  exact key.2 v

/-- A call that waits goes on waiting, with no more others before it, unless it returns; and once it is
due, it stays so. -/
theorem Chan.waits_step {s s' : State α} {x : Option (Action α × Obs α)} (h : Next s x s') {k i : Nat}
    (hw : Waits s k i) : (∃ o, x = some (.poll k, o) ∧ o ≠ .waits) ∨ (∃ o, x = some (.cancel k, o)) ∨
      ∃ j, j ≤ i ∧ Waits s' k j ∧ (Due s i → Due s' j) := by
  cases x with
  | none => cases h; exact .inr (.inr ⟨i, Nat.le_refl _, hw, id⟩)
  | some x =>
    obtain ⟨a, o⟩ := x
    obtain ⟨v, l₁, l₂, h2, rfl⟩ := hw
    have key2 : ∀ {j w n₁ n₂}, j ≠ k → s.line = n₁ ++ (j, w) :: n₂ →
        (∃ m₃, n₁ ++ n₂ = m₃ ++ (k, v) :: l₂ ∧ m₃.length + 1 = l₁.length) ∨
        ∃ m₃, n₁ ++ n₂ = l₁ ++ (k, v) :: m₃ ∧ l₁.length < n₁.length := by
      intro j w n₁ n₂ hj hn
      rw [h2] at hn
      rcases List.append_eq_append_iff.mp hn with ⟨x, hx1, hx2⟩ | ⟨x, hx1, hx2⟩
      · cases x with
        | nil => simp at hx2; exact absurd hx2.1.1.symm hj
        | cons y x =>
          simp at hx2
          obtain ⟨rfl, rfl⟩ := hx2
          exact .inr ⟨x ++ n₂, by simp [hx1], by simp [hx1]⟩
      · cases x with
        | nil => simp at hx2; exact absurd hx2.1.1 hj
        | cons y x =>
          simp at hx2
          obtain ⟨rfl, rfl⟩ := hx2
          exact .inl ⟨n₁ ++ x, by simp, by simp [hx1]; omega⟩
    have hlen := congrArg List.length h2
    simp only [List.length_append, List.length_cons] at hlen
    cases Chan.move (show step s a = some (s', o) from h) with
    | send j w hn hr hq =>
      refine .inr (.inr ⟨l₁.length, Nat.le_refl _, ⟨v, l₁, l₂, h2, rfl⟩, fun _ => .inr ?_⟩)
      simp only [List.length_append, List.length_singleton]
      omega
    | wait j w hn hr hq =>
      exact .inr (.inr ⟨l₁.length, Nat.le_refl _, ⟨v, l₁, l₂ ++ [(j, w)], by simp [h2], rfl⟩, id⟩)
    | fail j w hn hr => exact .inr (.inr ⟨_, Nat.le_refl _, ⟨v, l₁, l₂, h2, rfl⟩, id⟩)
    | go j w n₁ n₂ hn hn' hr hq =>
      by_cases hj : j = k
      · subst hj; exact .inl ⟨_, rfl, nofun⟩
      · rcases key2 hj hn with ⟨m₃, h5, h6⟩ | ⟨m₃, h5, h6⟩
        · refine .inr (.inr ⟨m₃.length, by omega, ⟨v, m₃, l₂, h5, rfl⟩, ?_⟩)
          rintro (h | h)
          · rw [hr] at h; cases h
          · refine .inr ?_
            simp only [List.length_append, List.length_singleton]
            omega
        · refine .inr (.inr ⟨l₁.length, Nat.le_refl _, ⟨v, l₁, m₃, h5, rfl⟩, fun _ => .inr ?_⟩)
          simp only [List.length_append, List.length_singleton]
          omega
    | stay j w n₁ n₂ hn hn' hr hq => exact .inr (.inr ⟨_, Nat.le_refl _, ⟨v, l₁, l₂, h2, rfl⟩, id⟩)
    | lose j w n₁ n₂ hn hn' hr =>
      by_cases hj : j = k
      · subst hj; exact .inl ⟨_, rfl, nofun⟩
      · rcases key2 hj hn with ⟨m₃, h5, h6⟩ | ⟨m₃, h5, h6⟩
        · exact .inr (.inr ⟨m₃.length, by omega, ⟨v, m₃, l₂, h5, rfl⟩, fun _ => .inl hr⟩)
        · exact .inr (.inr ⟨l₁.length, Nat.le_refl _, ⟨v, l₁, m₃, h5, rfl⟩, fun _ => .inl hr⟩)
    | cancel j w n₁ n₂ hn hn' =>
      by_cases hj : j = k
      · subst hj; exact .inr (.inl ⟨_, rfl⟩)
      · rcases key2 hj hn with ⟨m₃, h5, h6⟩ | ⟨m₃, h5, h6⟩
        · refine .inr (.inr ⟨m₃.length, by omega, ⟨v, m₃, l₂, h5, rfl⟩, ?_⟩)
          rintro (h | h)
          · exact .inl h
          · exact .inr (by show s.queue.length + _ < s.cap; omega)
        · exact .inr (.inr ⟨l₁.length, Nat.le_refl _, ⟨v, l₁, m₃, h5, rfl⟩, id⟩)
    | recv w q hq =>
      refine .inr (.inr ⟨_, Nat.le_refl _, ⟨v, l₁, l₂, h2, rfl⟩, ?_⟩)
      rintro (h | h)
      · exact .inl h
      · rw [hq, List.length_cons] at h
        exact .inr (by show q.length + _ < s.cap; omega)
    | close hr => exact .inr (.inr ⟨_, Nat.le_refl _, ⟨v, l₁, l₂, h2, rfl⟩, fun _ => .inl rfl⟩)

/-- If the first call in line returns or is dropped, the others move up. -/
theorem Chan.head_leaves {s s' : State α} {a : Action α} {o : Obs α} (h : step s a = some (s', o))
    {h₀ k i : Nat} {v : α} {l : List (Nat × α)} (hl : s.line = (h₀, v) :: l)
    (ha : (a = .poll h₀ ∧ o ≠ .waits) ∨ a = .cancel h₀) (hw : Waits s k (i + 1)) : Waits s' k i := by
  obtain ⟨w, l₁, l₂, h1, h2⟩ := hw
  rw [hl] at h1
  cases l₁ with
  | nil => cases h2
  | cons x l₁ =>
    rw [List.cons_append] at h1
    injection h1 with h3 h4
    subst h3 h4
    have key : ∀ {w' n₁ n₂}, s.line = n₁ ++ (h₀, w') :: n₂ → (∀ w, (h₀, w) ∉ n₁) →
        n₁ ++ n₂ = l₁ ++ (k, w) :: l₂ := by
      intro w' n₁ n₂ hn hn'
      rw [hl] at hn
      cases n₁ with
      | nil => simp at hn; simp [hn.2]
      | cons y n₁ =>
        rw [List.cons_append] at hn
        injection hn with h5 h6
        subst h5
        exact absurd (List.mem_cons_self ..) (hn' v)
    have hi : l₁.length = i := Nat.succ.inj h2
    rcases ha with ⟨rfl, ho⟩ | rfl
    · cases Chan.move h with
      | go _ w' n₁ n₂ hn hn' hr hq => exact ⟨w, l₁, l₂, key hn hn', hi⟩
      | stay => exact absurd rfl ho
      | lose _ w' n₁ n₂ hn hn' hr => exact ⟨w, l₁, l₂, key hn hn', hi⟩
    · cases Chan.move h with
      | cancel _ w' n₁ n₂ hn hn' => exact ⟨w, l₁, l₂, key hn hn', hi⟩

/-- A call that waits and is due returns at once when it is polled. -/
theorem Chan.due_returns {s s' : State α} {k i : Nat} {o : Obs α} (hw : Waits s k i) (hd : Due s i)
    (h : step s (.poll k) = some (s', o)) : o ≠ .waits := by
  obtain ⟨v, l₁, l₂, hl, rfl⟩ := hw
  rintro rfl
  cases Chan.move h with
  | stay _ w n₁ n₂ hn hn' hr hq =>
    rcases hd with hd | hd
    · rw [hr] at hd; cases hd
    · refine hq (Nat.lt_of_le_of_lt (Nat.add_le_add_left ?_ _) hd)
      rw [hl] at hn
      rcases List.append_eq_append_iff.mp hn with ⟨x, hx1, hx2⟩ | ⟨x, hx1, hx2⟩
      · cases x with
        | nil => simp [hx1]
        | cons y x =>
          rw [List.cons_append] at hx2
          injection hx2 with h5 h6
          subst h5
          exact absurd (by simp [hx1]) (hn' v)
      · simp [hx1]

/-- **C105.** A call that is due returns when it is polled: `Ok` if the receiving task exists, an error
if it is gone. -/
theorem C105_due {s : State α} {k i : Nat} (hw : Waits s k i) (hd : Due s i) :
    ∃ s' o, step s (.poll k) = some (s', o) ∧
      if s.rx then ∃ v, o = .sent v ∧ s'.queue = s.queue ++ [v] else o = .failed := by
  have hex : ∃ s' o, step s (.poll k) = some (s', o) := by
    obtain ⟨v, l₁, l₂, hl, -⟩ := hw
    simp only [step]
    split
    · next h => exact absurd (by simp [hl]) (leave_none h v)
    · split
      · split <;> exact ⟨_, _, rfl⟩
      · exact ⟨_, _, rfl⟩
  obtain ⟨s', o, h⟩ := hex
  refine ⟨s', o, h, ?_⟩
  have h1 := Chan.due_returns hw hd h
  cases Chan.move h with
  | go _ v n₁ n₂ hn hn' hr hq => rw [if_pos hr]; exact ⟨v, rfl, rfl⟩
  | stay => exact absurd rfl h1
  | lose _ v n₁ n₂ hn hn' hr => rw [if_neg (by simp [hr])]

section Runs

variable {cap : Nat} (r : Run α cap)

theorem Chan.run_cap (n : Nat) : (r.state n).cap = cap := by
  induction n with
  | zero => rw [r.start]; rfl
  | succ n ih =>
    have h := r.next n
    generalize r.state (n + 1) = z at *
    cases hx : r.act n with
    | none => rw [hx] at h; cases h; exact ih
    | some x =>
      obtain ⟨a, o⟩ := x
      rw [hx] at h
      cases Chan.move (show step _ a = some (z, o) from h) <;> exact ih

theorem Chan.run_waits {N k i : Nat} (hw : Waits (r.state N) k i) {n : Nat} (hn : N ≤ n) :
    (∃ m j, N ≤ m ∧ m < n ∧ r.Returns k m ∧ j ≤ i ∧ Waits (r.state m) k j) ∨
    ∃ j, j ≤ i ∧ Waits (r.state n) k j ∧ (Due (r.state N) i → Due (r.state n) j) := by
  induction n with
  | zero =>
    obtain rfl : N = 0 := by omega
    exact .inr ⟨i, Nat.le_refl _, hw, id⟩
  | succ n ih =>
    rcases Nat.eq_or_lt_of_le hn with rfl | hn
    · exact .inr ⟨i, Nat.le_refl _, hw, id⟩
    · rcases ih (by omega) with ⟨m, j, h1, h2, h3⟩ | ⟨j, h1, h2, h3⟩
      · exact .inl ⟨m, j, h1, by omega, h3⟩
      · rcases Chan.waits_step (r.next n) h2 with h4 | h4 | ⟨j', h4, h5, h6⟩
        · exact .inl ⟨n, j, by omega, by omega, .inl h4, h1, h2⟩
        · exact .inl ⟨n, j, by omega, by omega, .inr h4, h1, h2⟩
        · exact .inr ⟨j', by omega, h5, fun h => h6 (h3 h)⟩

/-- Calls that are due return. -/
theorem Chan.run_due (hp : r.Polled) {N k i : Nat} (hw : Waits (r.state N) k i)
    (hd : Due (r.state N) i) : ∃ n j, N ≤ n ∧ r.Returns k n ∧ j ≤ i ∧ Waits (r.state n) k j := by
  obtain ⟨n, o, hn, h⟩ := hp N k i hw hd
  rcases Chan.run_waits r hw hn with ⟨m, j, h1, -, h3⟩ | ⟨j, h1, h2, h3⟩
  · exact ⟨m, j, h1, h3⟩
  · refine ⟨n, j, hn, ?_, h1, h2⟩
    rcases h with h | h
    · refine .inl ⟨o, h, ?_⟩
      have h4 := r.next n
      rw [h] at h4
      exact Chan.due_returns h2 (h3 hd) h4
    · exact .inr ⟨o, h⟩

/-- **C105, the part that holds.** If the receiving task goes on and calls that can return are polled
or dropped, then every call that waits returns or is dropped. -/
theorem C105_returns_partial (hp : r.Polled) (hr : r.Drained) {N k i : Nat}
    (hw : Waits (r.state N) k i) : ∃ n, N ≤ n ∧ r.Returns k n := by
  induction i using Nat.strongRecOn generalizing N with
  | _ i ih =>
    obtain ⟨n, hn, hq⟩ := hr N
    rcases Chan.run_waits r hw hn with ⟨m, -, h1, -, h3, -⟩ | ⟨j, h1, hwk, -⟩
    · exact ⟨m, h1, h3⟩
    · obtain ⟨v, l₁, l₂, hl, hj⟩ := id hwk
      have hdue : Due (r.state n) 0 := by
        cases hx : (r.state n).rx
        · exact .inl hx
        · exact .inr (by rw [Chan.run_cap]; exact hq hx)
      obtain ⟨⟨h₀, w⟩, l, hc⟩ : ∃ x l, (r.state n).line = x :: l := by
        rw [hl]
        cases l₁ <;> exact ⟨_, _, rfl⟩
      obtain ⟨m, j', hm, h, hj', hw'⟩ := Chan.run_due r hp (k := h₀) ⟨w, [], l, hc, rfl⟩ hdue
      obtain rfl : j' = 0 := Nat.le_zero.mp hj'
      obtain ⟨w', m₁, m₂, h5, h6⟩ := hw'
      rw [List.length_eq_zero_iff.mp h6, List.nil_append] at h5
      rcases Chan.run_waits r hwk hm with ⟨m', -, h7, -, h8, -⟩ | ⟨j', h7, h8, -⟩
      · exact ⟨m', by omega, h8⟩
      · cases j' with
        | zero =>
          obtain ⟨w₂, n₁, n₂, h9, h10⟩ := h8
          rw [List.length_eq_zero_iff.mp h10, List.nil_append, h5] at h9
          injection h9 with h9
          injection h9 with h9
          subst h9
          exact ⟨m, by omega, h⟩
        | succ p =>
          have hs := r.next m
          have h10 : Waits (r.state (m + 1)) k p := by
            rcases h with ⟨o, h, ho⟩ | ⟨o, h⟩
            · rw [h] at hs; exact Chan.head_leaves hs h5 (.inl ⟨rfl, ho⟩) h8
            · rw [h] at hs; exact Chan.head_leaves hs h5 (.inr rfl) h8
          obtain ⟨n', h11, h12⟩ := ih p (by omega) h10
          exact ⟨n', by omega, h12⟩

end Runs

section Examples

/-- Three calls; the second is dropped while it waits, the third takes its turn. -/
def chanActions : List (Action String) :=
  [.send 0 "a", .send 1 "b", .send 2 "c", .poll 2, .recv, .poll 2, .cancel 1, .poll 2, .recv]

example : ∃ (tr : Trace String) (s : State String), Exec step (init 1) tr s ∧
    (calls tr, done tr, taken tr) =
      ([(0, "a"), (1, "b"), (2, "c")], [(0, "a"), (2, "c")], ["a", "c"]) ∧ s = init 1 :=
  ⟨_, _, exec_of_perform (as := chanActions) rfl, by decide +kernel, rfl⟩

/-- The call of caller 2 waits behind that of caller 1, which is polled and returns `Ok`; another call
comes and waits. -/
example : ∃ (s s' : State String) (t : Trace String), s.cap = 1 ∧
    s.line = [(1, "b")] ++ (2, "c") :: [] ∧ Exec step s t s' ∧ Ignores 2 t ∧ done t = [(1, "b")] ∧
    Waits s' 2 0 :=
  ⟨⟨1, ["a"], [(1, "b"), (2, "c")], true⟩, _, _, rfl, rfl,
    exec_of_perform (as := [.recv, .send 3 "d", .poll 3, .poll 1, .recv, .poll 3]) rfl,
    by simp [Ignores], rfl, "c", [], [(3, "d")], rfl, rfl⟩

/-- A call that is dropped while it is first in line. -/
example : ∃ (t u : Trace String) (o : Obs String) (s : State String),
    Exec step (init 1) (t ++ (.cancel 1, o) :: u) s ∧ (∀ v o, (.send 1 v, o) ∉ u) ∧
    calls t = [(0, "a"), (1, "b"), (2, "c")] ∧ done u = [(2, "c")] :=
  ⟨[(.send 0 "a", .sent "a"), (.send 1 "b", .waits), (.send 2 "c", .waits), (.recv, .got "a")],
    [(.poll 2, .sent "c")], .none, _,
    exec_of_perform (as := [.send 0 "a", .send 1 "b", .send 2 "c", .recv, .cancel 1, .poll 2]) rfl,
    by simp, rfl, rfl⟩

/-- A call that is due, with another before it that is due too. -/
example : Waits (⟨8, ["a"], [(4, "b"), (5, "c")], true⟩ : State String) 5 1 ∧
    Due (⟨8, ["a"], [(4, "b"), (5, "c")], true⟩ : State String) 1 :=
  ⟨⟨"c", [(4, "b")], [], rfl, rfl⟩, .inr (by decide)⟩

/-- Two callers send for ever; the second always has to wait. -/
def chanState (n : Nat) : State String :=
  match n % 5 with
  | 0 => init 1
  | 1 => ⟨1, ["a"], [], true⟩
  | 2 => ⟨1, ["a"], [(1, "b")], true⟩
  | 3 => ⟨1, [], [(1, "b")], true⟩
  | _ => ⟨1, ["b"], [], true⟩

def chanAct (n : Nat) : Option (Action String × Obs String) :=
  match n % 5 with
  | 0 => some (.send 0 "a", .sent "a")
  | 1 => some (.send 1 "b", .waits)
  | 2 => some (.recv, .got "a")
  | 3 => some (.poll 1, .sent "b")
  | _ => some (.recv, .got "b")

theorem mod_five (n : Nat) : n % 5 = 0 ∧ (n + 1) % 5 = 1 ∨ n % 5 = 1 ∧ (n + 1) % 5 = 2 ∨
    n % 5 = 2 ∧ (n + 1) % 5 = 3 ∨ n % 5 = 3 ∧ (n + 1) % 5 = 4 ∨ n % 5 = 4 ∧ (n + 1) % 5 = 0 := by
  omega

def chanRun : Run String 1 where
  state := chanState
  act := chanAct
  start := rfl
  next n := by
    rcases mod_five n with h | h | h | h | h <;> simp only [chanState, chanAct, h.1, h.2] <;> rfl

/-- The run meets the conditions of `C105_returns_partial`, and at time 2 a call waits. -/
example : chanRun.Polled ∧ chanRun.Drained ∧ Waits (chanRun.state 2) 1 0 := by
  refine ⟨?_, ?_, "b", [], [], rfl, rfl⟩
  · intro N k i hw _
    have key : ∀ {l : List (Nat × String)}, (chanRun.state N).line = l →
        (l = [] → False) ∧ (l = [(1, "b")] → k = 1) := by
      rintro l rfl
      obtain ⟨v, l₁, l₂, h, -⟩ := hw
      rw [h]
      cases l₁ with
      | nil => simp; rintro rfl _ _; rfl
      | cons x l₁ => simp
    rcases mod_five N with h | h | h | h | h
    · exact absurd rfl (key (l := []) (by simp only [chanRun, chanState, h.1]; rfl)).1
    · exact absurd rfl (key (l := []) (by simp only [chanRun, chanState, h.1])).1
    · obtain rfl := (key (l := [(1, "b")]) (by simp only [chanRun, chanState, h.1])).2 rfl
      exact ⟨N + 1, _, by omega, .inl (by simp only [chanRun, chanAct, h.2]; rfl)⟩
    · obtain rfl := (key (l := [(1, "b")]) (by simp only [chanRun, chanState, h.1])).2 rfl
      exact ⟨N, _, by omega, .inl (by simp only [chanRun, chanAct, h.1]; rfl)⟩
    · exact absurd rfl (key (l := []) (by simp only [chanRun, chanState, h.1])).1
  · intro N
    refine ⟨5 * N, by omega, fun _ => ?_⟩
    have : (5 * N) % 5 = 0 := by omega
    simp only [chanRun, chanState, this]
    decide

end Examples

end Rsomeip
