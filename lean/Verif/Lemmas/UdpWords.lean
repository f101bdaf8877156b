import Verif.Spec.UdpWords
import Verif.Lemmas.UdpSole

/-! # What the words of a history say about the state -/

namespace Rsomeip.Rt.Udp

open Spec.Udp

/-- What `busyStep` computes. -/
def Pc.dealing : Pc → Option (Addr × Bool)
  | .idle => none
  | .stopped => none
  | .lookup a _ => some (a, false)
  | .found a _ _ => some (a, false)
  | .stale a _ => some (a, false)
  | .admit a _ => some (a, false)
  | .queued a _ _ => some (a, true)
  | .filled a _ => some (a, true)

section
variable {tr : Trace} {s : State}

theorem dealing_eq (e : Exec step init tr s) : tr.foldl busyStep none = s.pc.dealing := by
  induction e with
  | nil => rfl
  | @snoc tr s s' x o e hs ih =>
    have m := move_of_step hs
    rw [List.foldl_append, ih]
    cases m <;> first
      | (have hpc := ‹s.pc = _›; simp only [hpc, List.foldl_cons, List.foldl_nil]; rfl)
      | (simp only [List.foldl_cons, List.foldl_nil]; cases s.pc <;> rfl)

theorem failed_iff (e : Exec step init tr s) : (.failure, .none) ∈ tr ↔ s.pc = .stopped := by
  induction e with
  | nil => exact ⟨nofun, nofun⟩
  | @snoc tr s s' x o e hs ih =>
    have m := move_of_step hs
    simp only [List.mem_append, List.mem_singleton]
    cases m <;> grind

theorem closed_iff (e : Exec step init tr s) : (.close, .none) ∈ tr ↔ s.owner = false := by
  induction e with
  | nil => exact ⟨nofun, nofun⟩
  | @snoc tr s s' x o e hs ih =>
    have m := move_of_step hs
    simp only [List.mem_append, List.mem_singleton]
    cases m <;> grind

theorem waiting_iff (e : Exec step init tr s) : Waiting tr ↔ s.pc = .idle := by
  rw [Waiting, busy, dealing_eq e, failed_iff e]
  cases s.pc <;> simp [Pc.dealing]

/-- What is known about listeners and their queues. -/
structure Queues (tr : Trace) (s : State) : Prop where
  latest : ∀ l, (tr.foldl (offerStep l) (none, [])).1 = (listeners tr).head?.map Prod.fst
  low : ∀ l, s.backlogCount ≤ l → offered l tr = [] ∧ takenFrom l tr = []
  split : ∀ l, takenFrom l tr <+: offered l tr
  queue : ∀ l, (s.backlogs l).rx = true → (s.backlogs l).queue = pending l tr
  bound : ∀ l, (pending l tr).length ≤ (s.backlogs l).cap
  dropped : ∀ l, (.dropListener l, .none) ∈ tr → l < s.backlogCount ∧ (s.backlogs l).rx = false

theorem takenFrom_snoc (l : Nat) (tr : Trace) (x : Action × Obs) :
    takenFrom l (tr ++ [x]) = takenFrom l tr ++ takenFrom l [x] := by
  simp only [takenFrom, List.filterMap_append]

theorem offer_snoc (l : Nat) (tr : Trace) (x : Action × Obs) :
    (tr ++ [x]).foldl (offerStep l) (none, []) = offerStep l (tr.foldl (offerStep l) (none, [])) x := by
  rw [List.foldl_append]; rfl

section
variable {s' : State} {act : Action} {o : Obs}

theorem queues_latest (h : Queues tr s) (m : Move s act o s') (l : Nat) :
    ((tr ++ [(act, o)]).foldl (offerStep l) (none, [])).1 =
      (listeners (tr ++ [(act, o)])).head?.map Prod.fst := by
  rw [offer_snoc, listeners_snoc]
  have h1 := h.latest l
  generalize tr.foldl (offerStep l) (none, []) = st at h1 ⊢
  obtain ⟨n, q⟩ := st
  cases m <;> simp_all [offerStep, listeners]

/-- What a step does to the connections made for a listener. -/
theorem Queues.offered_snoc (h : Queues tr s) (c : Calls tr s) (m : Move s act o s') (l : Nat) :
    offered l (tr ++ [(act, o)]) = offered l tr ++
      match (generalizing := false) act, o with
      | .task, .admitted a _ c => if s.listener = some l then [(c, a)] else []
      | _, _ => [] := by
  have h1 := h.latest l
  simp only [offered, offer_snoc]
  have h2 := c.latest
  generalize tr.foldl (offerStep l) (none, []) = st at h1 ⊢
  obtain ⟨n, q⟩ := st
  cases m
  case enqueue a p l' hpc hl hrx hlen =>
    obtain ⟨k, rest, hk⟩ := h2 l' hl
    rw [hk] at h1
    dsimp only [List.head?_cons, Option.map_some] at h1
    subst h1
    simp only [offerStep, hl]
    split <;> simp
  all_goals simp [offerStep]

theorem queues_step (h : Queues tr s) (t : Tables s) (c : Calls tr s) (m : Move s act o s') :
    Queues (tr ++ [(act, o)]) s' := by
  have ho := h.offered_snoc c m
  have hlt : ∀ l q a, (s.backlogs l).queue = a :: q → l < s.backlogCount := by
    intro l q a hq
    rcases Nat.lt_or_ge l s.backlogCount with h1 | h1
    · exact h1
    · rw [(t.backlogs l h1).2] at hq; cases hq
  -- either nothing about the queues changes
  have same : (∀ l, offered l (tr ++ [(act, o)]) = offered l tr) →
      (∀ l, takenFrom l (tr ++ [(act, o)]) = takenFrom l tr) →
      (∀ l, act ≠ .dropListener l) →
      s'.backlogs = s.backlogs → s'.backlogCount = s.backlogCount → Queues (tr ++ [(act, o)]) s' := by
    intro h1 h2 h3 h4 h5
    have hp : ∀ l, pending l (tr ++ [(act, o)]) = pending l tr := fun l => by
      rw [pending, pending, h1, h2]
    refine ⟨queues_latest h m, ?_, ?_, ?_, ?_, ?_⟩
    · intro l hl; rw [h1, h2]; exact h.low l (h5 ▸ hl)
    · intro l; rw [h1, h2]; exact h.split l
    · intro l hl; rw [hp, h4]; exact h.queue l (h4 ▸ hl)
    · intro l; rw [hp, h4]; exact h.bound l
    · intro l hl
      rw [h4, h5]
      refine h.dropped l ?_
      rcases List.mem_append.mp hl with hl | hl
      · exact hl
      · cases List.mem_singleton.mp hl; exact absurd rfl (h3 l)
  have olddrop : (∀ l, act ≠ .dropListener l) → ∀ l, (.dropListener l, .none) ∈ tr ++ [(act, o)] →
      (.dropListener l, .none) ∈ tr := by
    intro h3 l hl
    rcases List.mem_append.mp hl with hl | hl
    · exact hl
    · cases List.mem_singleton.mp hl; exact absurd rfl (h3 l)
  cases m
  case enqueue a p l0 hpc hl hrx hlen =>
    have h1 : ∀ l, offered l (tr ++ [(.task, .admitted a p s.chanCount)]) = offered l tr ++
        if l0 = l then [(s.chanCount, a)] else [] := by
      intro l; rw [ho, hl]; simp
    have h2 : ∀ l, takenFrom l (tr ++ [(.task, .admitted a p s.chanCount)]) = takenFrom l tr := by
      intro l; rw [takenFrom_snoc]; simp [takenFrom]
    have hp : ∀ l, pending l (tr ++ [(.task, .admitted a p s.chanCount)]) = pending l tr ++
        if l0 = l then [(s.chanCount, a)] else [] := by
      intro l
      rw [pending, pending, h1, h2, List.drop_append_of_le_length (h.split l).length_le]
    have hl0 := t.listener l0 hl
    refine ⟨queues_latest h (.enqueue a p l0 hpc hl hrx hlen), ?_, ?_, ?_, ?_, ?_⟩
    · intro l hl'
      rw [h1, h2, if_neg (by dsimp only at hl'; omega), List.append_nil]
      exact h.low l hl'
    · intro l
      rw [h1, h2]
      exact (h.split l).trans (List.prefix_append _ _)
    · intro l hl'
      rw [hp]
      have := h.queue l
      dsimp only at hl' ⊢
      grind [upd]
    · intro l
      rw [hp]
      have k1 := h.bound l
      have k2 := h.queue l
      dsimp only
      grind [upd]
    · intro l hl'
      have := h.dropped l (olddrop (fun _ => by simp) l hl')
      dsimp only
      grind [upd]
  case listen n ho' hn hpc =>
    have h1 : ∀ l, offered l (tr ++ [(.listen n, .listening s.backlogCount)]) = offered l tr := by
      intro l; rw [ho]; simp
    have h2 : ∀ l, takenFrom l (tr ++ [(.listen n, .listening s.backlogCount)]) = takenFrom l tr := by
      intro l; rw [takenFrom_snoc]; simp [takenFrom]
    have hp : ∀ l, pending l (tr ++ [(.listen n, .listening s.backlogCount)]) = pending l tr :=
      fun l => by rw [pending, pending, h1, h2]
    have hz : pending s.backlogCount tr = [] := by
      rw [pending, (h.low _ (Nat.le_refl _)).1, List.drop_nil]
    refine ⟨queues_latest h (.listen n ho' hn hpc), ?_, ?_, ?_, ?_, ?_⟩
    · intro l hl
      rw [h1, h2]
      exact h.low l (by dsimp only at hl; omega)
    · intro l; rw [h1, h2]; exact h.split l
    · intro l hl'
      rw [hp]
      have := h.queue l
      dsimp only at hl' ⊢
      grind [upd]
    · intro l
      rw [hp]
      have k1 := h.bound l
      dsimp only
      grind [upd]
    · intro l hl'
      have := h.dropped l (olddrop (fun _ => by simp) l hl')
      dsimp only
      grind [upd]
  case accept l0 d a q hl hrx hq =>
    have h1 : ∀ l, offered l (tr ++ [(.accept l0, .connection d a)]) = offered l tr := by
      intro l; rw [ho]; simp
    have h2 : ∀ l, takenFrom l (tr ++ [(.accept l0, .connection d a)]) = takenFrom l tr ++
        if l0 = l then [(d, a)] else [] := by
      intro l; rw [takenFrom_snoc]; simp only [takenFrom, List.filterMap_cons, List.filterMap_nil]
      split <;> simp_all
    have hp0 : pending l0 tr = (d, a) :: q := by rw [← h.queue l0 hrx, hq]
    have hoff : offered l0 tr = takenFrom l0 tr ++ (d, a) :: q := by
      rw [← hp0, pending]
      obtain ⟨u, hu⟩ := h.split l0
      rw [← hu, List.drop_left]
    have hp : ∀ l, pending l (tr ++ [(.accept l0, .connection d a)]) =
        if l0 = l then q else pending l tr := by
      intro l
      rw [pending, h1, h2]
      split
      · rename_i heq
        subst heq
        rw [hoff, List.append_cons (takenFrom l0 tr) (d, a) q, List.drop_left]
      · rw [List.append_nil]; rfl
    refine ⟨queues_latest h (.accept l0 d a q hl hrx hq), ?_, ?_, ?_, ?_, ?_⟩
    · intro l hl'
      rw [h1, h2, if_neg (by dsimp only at hl'; omega), List.append_nil]
      exact h.low l hl'
    · intro l
      rw [h1, h2]
      split
      · rename_i heq
        subst heq
        rw [hoff, List.append_cons (takenFrom l0 tr) (d, a) q]
        exact List.prefix_append _ _
      · rw [List.append_nil]; exact h.split l
    · intro l hl'
      rw [hp]
      have := h.queue l
      dsimp only at hl' ⊢
      grind [upd]
    · intro l
      rw [hp]
      have k1 := h.bound l
      dsimp only
      grind [upd]
    · intro l hl'
      have := h.dropped l (olddrop (fun _ => by simp) l hl')
      dsimp only
      grind [upd]
  case dropListener l0 hl hrx =>
    have h1 : ∀ l, offered l (tr ++ [(.dropListener l0, .none)]) = offered l tr := by
      intro l; rw [ho]; simp
    have h2 : ∀ l, takenFrom l (tr ++ [(.dropListener l0, .none)]) = takenFrom l tr := by
      intro l; rw [takenFrom_snoc]; simp [takenFrom]
    have hp : ∀ l, pending l (tr ++ [(.dropListener l0, .none)]) = pending l tr :=
      fun l => by rw [pending, pending, h1, h2]
    refine ⟨queues_latest h (.dropListener l0 hl hrx), ?_, ?_, ?_, ?_, ?_⟩
    · intro l hl; rw [h1, h2]; exact h.low l hl
    · intro l; rw [h1, h2]; exact h.split l
    · intro l hl'
      rw [hp]
      have := h.queue l
      dsimp only at hl' ⊢
      grind [upd]
    · intro l
      rw [hp]
      have k1 := h.bound l
      dsimp only
      grind [upd]
    · intro l hl'
      rcases List.mem_append.mp hl' with hl' | hl'
      · have := h.dropped l hl'
        dsimp only
        grind [upd]
      · cases List.mem_singleton.mp hl'
        exact ⟨hl, by simp only [upd_same]⟩
  all_goals
    refine same ?_ ?_ ?_ rfl rfl
    · intro l; rw [ho]; simp
    · intro l; rw [takenFrom_snoc]; simp [takenFrom]
    · intro l; simp

end

theorem queues (e : Exec step init tr s) : Queues tr s := by
  induction e with
  | nil => exact ⟨fun _ => rfl, fun _ _ => ⟨rfl, rfl⟩, fun _ => List.prefix_rfl, nofun, fun _ => Nat.le_refl _, nofun⟩
  | snoc e hs ih =>
    obtain ⟨t, _, c⟩ := exec_inv e
    exact queues_step ih t c (move_of_step hs)

theorem listener_made (e : Exec step init tr s) {l : Nat} (hl : l < s.backlogCount) :
    l ∈ (listeners tr).map Prod.fst := by
  induction e with
  | nil => exact absurd hl (Nat.not_lt_zero l)
  | @snoc tr s s' x o e hs ih =>
    have m := move_of_step hs
    rw [listeners_snoc, List.map_append, List.mem_append]
    cases m
    case listen n ho hn hpc =>
      rcases Nat.lt_succ_iff_lt_or_eq.mp hl with h | rfl
      · exact .inr (ih h)
      · exact .inl (by simp [listeners])
    all_goals exact .inr (ih hl)

theorem listener_open_iff (e : Exec step init tr s) (l : Nat) :
    ListenerOpen l tr ↔ (s.backlogs l).rx = true := by
  obtain ⟨t, _, c⟩ := exec_inv e
  constructor
  · rintro ⟨h1, h2⟩
    obtain ⟨x, hx, rfl⟩ := List.mem_map.mp h1
    have := c.dropped x.1 (c.caps x hx).1
    cases h : (s.backlogs x.1).rx with
    | true => rfl
    | false => exact absurd (this h) h2
  · intro h
    have hl : l < s.backlogCount := by
      rcases Nat.lt_or_ge l s.backlogCount with h1 | h1
      · exact h1
      · rw [(t.backlogs l h1).1] at h; cases h
    refine ⟨listener_made e hl, fun hd => ?_⟩
    rw [((queues e).dropped l hd).2] at h
    cases h

/-- The newest listener, if it has not been dropped, is the one that new connections are made for. -/
theorem listener_eq (e : Exec step init tr s) {l n : Nat} {rest : List (Nat × Nat)}
    (h : listeners tr = (l, n) :: rest) (hd : (.dropListener l, .none) ∉ tr) : s.listener = some l := by
  obtain ⟨t, _, c⟩ := exec_inv e
  cases hl : s.listener with
  | none => exact absurd (c.none hl l n rest h) hd
  | some l' =>
    obtain ⟨n', rest', h'⟩ := c.latest l' hl
    rw [h] at h'
    cases h'
    rfl

/-- The receiver of a connection that was handed out exists until it is dropped. -/
theorem exec_held (e : Exec step init tr s) {c : Nat}
    (hd : (.dropReceiver c, .none) ∉ tr) (hh : (s.chans c).held = true) : (s.chans c).rx = true := by
  induction e with
  | nil => cases hh
  | snoc e hs ih =>
    rename_i tr s s' x o
    have m := move_of_step hs
    have t := (exec_inv e).1
    have ih := ih fun h => hd (List.mem_append_left _ h)
    have hd' : ¬ (x = .dropReceiver c ∧ o = .none) := by
      rintro ⟨rfl, rfl⟩
      exact hd (List.mem_append_right _ (List.mem_singleton_self _))
    have hq := t.queues
    cases m
    case dropListener l hl hrx =>
      dsimp only at hh ⊢
      split at hh
      · rename_i ha
        obtain ⟨x, hx, hxc⟩ := List.any_eq_true.mp ha
        have := (hq l x hx).2.2.2
        rw [of_decide_eq_true hxc] at this
        rw [this] at hh
        cases hh
      · rename_i ha
        rw [if_neg ha]
        exact ih hh
    case accept l d a q hl hrx hqq =>
      have := (hq l (d, a) (by rw [hqq]; exact List.mem_cons_self ..)).2.2.1
      dsimp only at hh this ⊢
      grind [upd]
    all_goals grind [upd, Chan.push_rx, Chan.push_held]

/-- A connection that was handed out shows in the history. -/
theorem held_shown (e : Exec step init tr s) {c : Nat} (h : (s.chans c).held = true) :
    c ∈ (connections tr).map Prod.fst := by
  induction e with
  | nil => cases h
  | @snoc tr s s' x o e hs ih =>
    have m := move_of_step hs
    rw [connections_snoc, List.map_append, List.mem_append]
    cases m
    case connect a ho =>
      by_cases hc : c = s.chanCount
      · subst hc; exact .inr (by simp [connections])
      · exact .inl (ih (by simpa only [upd_ne _ _ hc] using h))
    case accept l d a q hl hrx hq =>
      by_cases hc : c = d
      · subst hc; exact .inr (by simp [connections])
      · exact .inl (ih (by simpa only [upd_ne _ _ hc] using h))
    all_goals
      refine .inl (ih ?_)
      grind [upd, Chan.push_held]

/-- A dropped receiver is gone. -/
theorem dropped_rx (e : Exec step init tr s) {c : Nat} (h : (.dropReceiver c, .none) ∈ tr) :
    c < s.chanCount ∧ (s.chans c).rx = false := by
  induction e with
  | nil => cases h
  | @snoc tr s s' x o e hs ih =>
    have m := move_of_step hs
    rcases List.mem_append.mp h with h | h
    · obtain ⟨h1, h2⟩ := ih h
      obtain ⟨k1, -, k2⟩ := m.chan_keep h1
      refine ⟨k1, ?_⟩
      cases hr : (s'.chans c).rx with
      | false => rfl
      | true => rw [k2 hr] at h2; cases h2
    · cases List.mem_singleton.mp h
      cases m with
      | dropReceiver _ hc => exact ⟨hc, by simp only [upd_same]⟩

theorem receiver_open_iff (e : Exec step init tr s) (c : Nat) :
    ReceiverOpen c tr ↔ (s.chans c).rx = true ∧ (s.chans c).held = true := by
  obtain ⟨t, g, _⟩ := exec_inv e
  constructor
  · rintro ⟨h1, h2⟩
    obtain ⟨x, hx, rfl⟩ := List.mem_map.mp h1
    have := (g.conns x hx).2.2
    exact ⟨exec_held e h2 this, this⟩
  · rintro ⟨h1, h2⟩
    refine ⟨held_shown e h2, fun hd => ?_⟩
    rw [(dropped_rx e hd).2] at h1
    cases h1

/-- Connections offered to a listener were made. -/
theorem offered_lt (e : Exec step init tr s) : ∀ l, ∀ x ∈ offered l tr, x.1 < s.chanCount := by
  induction e with
  | nil => exact fun l x hx => nomatch hx
  | @snoc tr s s' y o e hs ih =>
    have m := move_of_step hs
    intro l x hx
    rw [(queues e).offered_snoc (exec_inv e).2.2 m] at hx
    have ih := ih l x
    cases m
    case enqueue a p l0 hpc hl hrx hlen =>
      dsimp only at hx ⊢
      grind
    all_goals
      simp only [List.append_nil] at hx
      have := ih hx
      first | exact this | exact Nat.lt_succ_of_lt this

theorem pending_lt (e : Exec step init tr s) (l : Nat) {c : Nat}
    (h : c ∈ (pending l tr).map Prod.fst) : c < s.chanCount := by
  obtain ⟨x, hx, rfl⟩ := List.mem_map.mp h
  exact offered_lt e l x (List.mem_of_mem_drop hx)

/-- The queue of a dropped listener does not change. -/
theorem pending_keep {s' : State} {act : Action} {o : Obs} (e : Exec step init tr s) (m : Move s act o s')
    {l : Nat} (hd : (s.backlogs l).rx = false) : pending l (tr ++ [(act, o)]) = pending l tr := by
  have hq := queues e
  have h1 : offered l (tr ++ [(act, o)]) = offered l tr := by
    rw [hq.offered_snoc (exec_inv e).2.2 m]
    cases m <;> simp
    rename_i hl hrx _
    intro h
    rw [h] at hl
    cases hl
    rw [hd] at hrx
    cases hrx
  have h2 : takenFrom l (tr ++ [(act, o)]) = takenFrom l tr := by
    rw [takenFrom_snoc]
    cases m <;> simp [takenFrom]
    rintro rfl
    rename_i hrx _
    rw [hd] at hrx
    cases hrx
  rw [pending, pending, h1, h2]

/-- Whether the receiver of a connection still exists can be told from the history. -/
theorem discarded_iff (e : Exec step init tr s) {c : Nat} (hc : c < s.chanCount) :
    Discarded c tr ↔ (s.chans c).rx = false := by
  induction e with
  | nil => exact absurd hc (Nat.not_lt_zero c)
  | @snoc tr s s' x o e hs ih =>
    have m := move_of_step hs
    have e' := e.snoc hs
    have hq := queues e
    have hq' := queues e'
    have keep : Discarded c tr → Discarded c (tr ++ [(x, o)]) := by
      rintro (h | ⟨l, h1, h2⟩)
      · exact .inl (List.mem_append_left _ h)
      · exact .inr ⟨l, by rw [pending_keep e m (hq.dropped l h2).2]; exact h1, List.mem_append_left _ h2⟩
    constructor
    · rintro (h | ⟨l, h1, h2⟩)
      · exact (dropped_rx e' h).2
      · rcases List.mem_append.mp h2 with h2 | h2
        · rw [pending_keep e m (hq.dropped l h2).2] at h1
          have hlt := pending_lt e l h1
          have := (ih hlt).mp (.inr ⟨l, h1, h2⟩)
          cases hr : (s'.chans c).rx with
          | false => rfl
          | true => rw [(m.chan_keep hlt).2.2 hr] at this; cases this
        · cases List.mem_singleton.mp h2
          cases m with
          | dropListener _ hl hrx =>
            have : pending l (tr ++ [(.dropListener l, .none)]) = pending l tr := by
              rw [pending, pending, hq.offered_snoc (exec_inv e).2.2 (.dropListener l hl hrx), takenFrom_snoc]
              simp [takenFrom]
            rw [this, ← hq.queue l hrx] at h1
            obtain ⟨y, hy, rfl⟩ := List.mem_map.mp h1
            dsimp only
            rw [if_pos (List.any_eq_true.mpr ⟨y, hy, by simp⟩)]
    · intro h
      rcases m.chan_new hc with hlt | ⟨rfl, h1⟩
      · by_cases hr : (s.chans c).rx = true
        · cases m
          case dropListener l hl hrx =>
            dsimp only at h
            split at h
            · rename_i ha
              obtain ⟨y, hy, hyc⟩ := List.any_eq_true.mp ha
              refine .inr ⟨l, ?_, List.mem_append_right _ (List.mem_singleton_self _)⟩
              have : pending l (tr ++ [(.dropListener l, .none)]) = pending l tr := by
                rw [pending, pending, hq.offered_snoc (exec_inv e).2.2 (.dropListener l hl hrx), takenFrom_snoc]
                simp [takenFrom]
              rw [this, ← hq.queue l hrx]
              exact List.mem_map.mpr ⟨y, hy, of_decide_eq_true hyc⟩
            · rw [hr] at h; cases h
          case dropReceiver d hd hrx hh =>
            by_cases hcd : c = d
            · subst hcd
              exact .inl (List.mem_append_right _ (List.mem_singleton_self _))
            · simp only [upd_ne _ _ hcd] at h
              rw [hr] at h; cases h
          all_goals grind [upd, Chan.push_rx]
        · exact keep ((ih hlt).mpr (by simpa using hr))
      · exfalso
        cases m <;> simp_all [upd_same]

end

end Rsomeip.Rt.Udp
