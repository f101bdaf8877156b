import Verif.Lemmas.UdpWords

/-! # Connections that keep their address -/

namespace Rsomeip

open Rt Rt.Udp Spec.Udp

/-- The address of the packet the task is dealing with. -/
def Spec.handling : Pc → Option Addr
  | .idle => none
  | .stopped => none
  | .lookup a _ => some a
  | .found a _ _ => some a
  | .stale a _ => some a
  | .admit a _ => some a
  | .queued a _ _ => some a
  | .filled a _ => some a

/-- Connection `c` is registered for `a` and the task will not change that. -/
structure Kept (a : Addr) (c : Nat) (s : State) : Prop where
  registered : s.receivers.get a = some c
  count : c < s.chanCount
  rx : (s.chans c).rx = true
  held : (s.chans c).held = true
  pc : Spec.handling s.pc = some a → (∃ p, s.pc = .lookup a p) ∨ ∃ p, s.pc = .found a p c

section
variable {a : Addr} {c : Nat} {s s' : State} {act : Action} {o : Obs}

theorem kept_get (k : Kept a c s) (m : Move s act o s') (h1 : act ≠ .connect a) :
    s'.receivers.get a = some c := by
  obtain ⟨h2, h3, h4, h5, h6⟩ := k
  cases m
  case remove b p hpc =>
    have : b ≠ a := by
      rintro rfl
      rcases h6 (by rw [hpc]; rfl) with ⟨q, h⟩ | ⟨q, h⟩ <;> rw [hpc] at h <;> cases h
    exact (Map.get_remove _ _ _).trans (by rw [if_neg this]; exact h2)
  case store b d hpc =>
    have : b ≠ a := by
      rintro rfl
      rcases h6 (by rw [hpc]; rfl) with ⟨q, h⟩ | ⟨q, h⟩ <;> rw [hpc] at h <;> cases h
    exact (Map.get_insert _ _ _ _).trans (by rw [if_neg this]; exact h2)
  case connect b _ =>
    have : b ≠ a := by rintro rfl; exact h1 rfl
    exact (Map.get_insert _ _ _ _).trans (by rw [if_neg this]; exact h2)
  all_goals exact h2

theorem kept_rx (t : Tables s) (k : Kept a c s) (m : Move s act o s')
    (h2 : act ≠ .dropReceiver c) : (s'.chans c).rx = true := by
  obtain ⟨_, h3, h4, h5, _⟩ := k
  cases m
  case dropListener l hl hrx =>
    dsimp only
    rw [if_neg]
    · exact h4
    · intro hany
      obtain ⟨x, hx, hxc⟩ := List.any_eq_true.mp hany
      have hxc : x.1 = c := of_decide_eq_true hxc
      have := (t.queues l x hx).2.2.2
      rw [hxc, h5] at this
      cases this
  all_goals grind [upd, Chan.push_rx]

theorem kept_pc (k : Kept a c s) (m : Move s act o s') :
    Spec.handling s'.pc = some a → (∃ p, s'.pc = .lookup a p) ∨ ∃ p, s'.pc = .found a p c := by
  obtain ⟨h2, h3, h4, h5, h6⟩ := k
  intro h
  cases m
  case datagram b p hpc => cases h; exact .inl ⟨_, rfl⟩
  case hit b p d hpc hg =>
    cases h
    rw [h2] at hg
    cases hg
    exact .inr ⟨p, rfl⟩
  case miss b p hpc hg =>
    cases h
    rw [h2] at hg
    cases hg
  case refuse b p d hpc hrx =>
    cases h
    rcases h6 (by rw [hpc]; rfl) with ⟨q, h⟩ | ⟨q, h⟩ <;> rw [hpc] at h <;> cases h
    rw [h4] at hrx
    cases hrx
  case remove b p hpc =>
    cases h
    rcases h6 (by rw [hpc]; rfl) with ⟨q, h⟩ | ⟨q, h⟩ <;> rw [hpc] at h <;> cases h
  case enqueue b p l hpc hl hrx hlen =>
    cases h
    rcases h6 (by rw [hpc]; rfl) with ⟨q, h⟩ | ⟨q, h⟩ <;> rw [hpc] at h <;> cases h
  case fill b p d hpc hrx =>
    cases h
    rcases h6 (by rw [hpc]; rfl) with ⟨q, h⟩ | ⟨q, h⟩ <;> rw [hpc] at h <;> cases h
  case spill b p d hpc hrx =>
    cases h
    rcases h6 (by rw [hpc]; rfl) with ⟨q, h⟩ | ⟨q, h⟩ <;> rw [hpc] at h <;> cases h
  case connect b => exact h6 h
  case listenZero => exact h6 h
  case listen => exact h6 h
  case accept => exact h6 h
  case acceptNone => exact h6 h
  case dropListener => exact h6 h
  case lagged => exact h6 h
  case packet => exact h6 h
  case closed => exact h6 h
  case dropReceiver => exact h6 h
  case close => exact h6 h
  all_goals cases h

theorem kept_step (t : Tables s) (k : Kept a c s) (m : Move s act o s') (h1 : act ≠ .connect a)
    (h2 : act ≠ .dropReceiver c) : Kept a c s' :=
  ⟨kept_get k m h1, (peer_stable m c k.count).1, kept_rx t k m h2, held_stable m c k.count k.held,
    kept_pc k m⟩

theorem kept_open (k : Kept a c s) (ho : s.shared = true) (m : Move s act o s') :
    (act, o) ≠ (.recv c, .closed) := by
  intro h
  cases h
  cases m with
  | closed _ hc hrx hh hm hq hs =>
    have : s.hasSender c = true := by
      simp only [State.hasSender, ho, Bool.true_and, Bool.or_eq_true]
      exact .inl (List.any_eq_true.mpr ⟨(a, c), Map.mem_of_get k.registered, by simp⟩)
    rw [hs] at this
    cases this

theorem owner_step (ho : s.owner = true) (m : Move s act o s') (h : act ≠ .close) :
    s'.owner = true := by
  cases m <;> first | exact ho | exact absurd rfl h

theorem kept_fate (k : Kept a c s) (m : Move s act o s') :
    ∀ x ∈ fates [(act, o)], x.1 = a → x.2.2 = some c := by
  intro x hx hxa
  cases m <;> simp [fates] at hx
  all_goals
    subst hx
    cases hxa
    have hpc := ‹s.pc = _›
    rcases k.pc (by rw [hpc]; rfl) with ⟨q, h⟩ | ⟨q, h⟩ <;> rw [hpc] at h <;> cases h
  rfl

end

namespace Rt.Udp

theorem busy_eq {tr : Trace} {s : State} (e : Exec step init tr s) : busy tr = Spec.handling s.pc := by
  rw [busy, dealing_eq e]
  cases s.pc <;> rfl

theorem kept_connect {s s' : State} {a : Addr} {c : Nat} (hpc : Spec.handling s.pc ≠ some a)
    (h : step s (.connect a) = some (s', .connection c a)) : Kept a c s' := by
  cases move_of_step h
  refine ⟨(Map.get_insert _ _ _ _).trans (if_pos rfl), Nat.lt_succ_self _, ?_, ?_, fun h => absurd h hpc⟩ <;>
    simp only [upd_same]

/-- A connection that was made while the task was not dealing with its address keeps it. -/
theorem kept_exec {t u : Trace} {s : State} {a : Addr} {c : Nat}
    (e : Exec step init (t ++ (.connect a, .connection c a) :: u) s) (hb : busy t ≠ some a)
    (h1 : ∀ x ∈ u, x.1 ≠ .connect a) (h2 : ∀ x ∈ u, x.1 ≠ .dropReceiver c) : Kept a c s := by
  obtain ⟨s₀, e₀, e₁⟩ := e.split
  clear e
  rw [busy_eq e₀] at hb
  generalize hv : (.connect a, .connection c a) :: u = v at e₁
  induction e₁ generalizing u with
  | nil => cases hv
  | @snoc tr s s' x o e hs ih =>
    cases tr with
    | nil =>
      cases hv
      generalize hn : ([] : Trace) = w at e
      cases e with
      | snoc => simp at hn
      | nil => exact kept_connect hb hs
    | cons y tr =>
      cases hv
      exact kept_step (exec_inv (e₀.append e)).1
        (ih (fun x hx => h1 x (List.mem_append_left _ hx)) (fun x hx => h2 x (List.mem_append_left _ hx)) rfl)
        (move_of_step hs) (h1 _ (List.mem_append_right _ (List.mem_singleton_self _)))
        (h2 _ (List.mem_append_right _ (List.mem_singleton_self _)))

/-- A part of what follows the connection. -/
theorem kept_at {t u : Trace} {s : State} {a : Addr} {c : Nat} {x : Action × Obs}
    (e : Exec step init (t ++ (.connect a, .connection c a) :: u) s) (hb : busy t ≠ some a)
    (h1 : ∀ x ∈ u, x.1 ≠ .connect a) (h2 : ∀ x ∈ u, x.1 ≠ .dropReceiver c) (hx : x ∈ u) :
    ∃ u₁ u₂ s₁ s₂, u = u₁ ++ x :: u₂ ∧ Exec step init (t ++ (.connect a, .connection c a) :: u₁) s₁ ∧
      Kept a c s₁ ∧ Move s₁ x.1 x.2 s₂ := by
  obtain ⟨u₁, u₂, rfl⟩ := List.append_of_mem hx
  have hu : t ++ (.connect a, .connection c a) :: (u₁ ++ x :: u₂) =
      (t ++ (.connect a, .connection c a) :: u₁) ++ [x] ++ u₂ := by simp
  rw [hu] at e
  obtain ⟨s₂, e₂, -⟩ := e.split
  obtain ⟨s₁, e₁, hs⟩ := e₂.last
  exact ⟨u₁, u₂, s₁, s₂, rfl, e₁, kept_exec e₁ hb (fun x hx => h1 x (List.mem_append_left _ hx))
    (fun x hx => h2 x (List.mem_append_left _ hx)), move_of_step hs⟩

theorem made_peer {tr : Trace} {s : State} (e : Exec step init tr s) {c : Nat} {a : Addr}
    (h : Made tr c a) : c < s.chanCount ∧ (s.chans c).peer = a := by
  induction e with
  | nil => rcases h with h | ⟨p, h⟩ <;> cases h
  | @snoc tr s s' x o e hs ih =>
    have m := move_of_step hs
    have h' : Made tr c a ∨ (x = .connect a ∧ o = .connection c a) ∨
        ∃ p, x = .task ∧ o = .admitted a p c := by
      simp only [Made, List.mem_append, List.mem_singleton, Prod.mk.injEq] at h ⊢
      grind
    rcases h' with h' | ⟨rfl, rfl⟩ | ⟨p, rfl, rfl⟩
    · obtain ⟨h1, h2⟩ := ih h'
      exact ⟨(m.chan_keep h1).1, (m.chan_keep h1).2.1.trans h2⟩
    · cases m with
      | connect => exact ⟨Nat.lt_succ_self _, by simp only [upd_same]⟩
    · cases m with
      | enqueue => exact ⟨Nat.lt_succ_self _, by simp only [upd_same]⟩

/-- What is not read yet. -/
theorem chan_complete {tr : Trace} {s : State} (e : Exec step init tr s) (c : Nat)
    (hrx : (s.chans c).rx = true) :
    Shows (seen c tr ++ List.replicate (s.chans c).missed none ++ (s.chans c).queue.map some)
      (into c tr) ∧
    (seen c tr).length + (s.chans c).missed + (s.chans c).queue.length = (into c tr).length := by
  have h := (exec_inv e).2.1.exact c hrx
  rw [Chan.rest, ← List.append_assoc] at h
  exact ⟨h.1, by simpa [Nat.add_assoc] using h.2⟩

theorem all_read_iff {tr : Trace} {s : State} (e : Exec step init tr s) {c : Nat}
    (hrx : (s.chans c).rx = true) :
    AllRead c tr ↔ (s.chans c).queue = [] ∧ (s.chans c).missed = 0 := by
  have := (chan_complete e c hrx).2
  rw [AllRead, ← List.length_eq_zero_iff]
  omega

/-- As long as something is left, `recv` returns it. -/
theorem recv_next {tr : Trace} {s : State} (e : Exec step init tr s) {c : Nat} (ho : ReceiverOpen c tr)
    (hn : ¬ AllRead c tr) : ∃ s' o, step s (.recv c) = some (s', o) ∧ seen c [(.recv c, o)] ≠ [] ∧
      into c [(.recv c, o)] = [] := by
  obtain ⟨hrx, hh⟩ := (receiver_open_iff e c).mp ho
  have hc : c < s.chanCount := by
    rcases Nat.lt_or_ge c s.chanCount with h | h
    · exact h
    · rw [((exec_inv e).1.high c h).1] at hrx; cases hrx
  rw [all_read_iff e hrx] at hn
  have hcall : step s (.recv c) = recv s c := rfl
  rw [hcall, recv, if_pos ⟨hc, hrx, hh⟩]
  by_cases hm : (s.chans c).missed > 0
  · rw [if_pos hm]
    refine ⟨_, _, rfl, ?_, rfl⟩
    intro h
    simp [seen] at h
    omega
  · rw [if_neg hm]
    cases hq : (s.chans c).queue with
    | nil => exact absurd ⟨hq, by omega⟩ hn
    | cons p q => exact ⟨_, _, rfl, by simp [seen], rfl⟩

end Rt.Udp

end Rsomeip
