import Verif.Lemmas.UdpHist

/-! # The only channel for an address -/

namespace Rsomeip.Rt.Udp

open Spec.Udp

/-- Channel `c` is the only one for its address. -/
def Only (s : State) (c : Nat) : Prop :=
  c < s.chanCount ∧ ∀ d, d < s.chanCount → (s.chans d).peer = (s.chans c).peer → d = c

/-- A channel whose receiver exists, and which is the only one for its address, is registered or
about to be. -/
structure Sole (s : State) : Prop where
  stale : ∀ a p, s.pc = .stale a p → ∃ d, d < s.chanCount ∧ (s.chans d).peer = a ∧
    (s.chans d).rx = false
  reg : ∀ c, Only s c → (s.chans c).rx = true →
    s.receivers.get (s.chans c).peer = some c ∨ (∃ p, s.pc = .queued (s.chans c).peer p c) ∨
      s.pc = .filled (s.chans c).peer c

section
variable {s s' : State} {act : Action} {o : Obs}

theorem Move.chan_keep (m : Move s act o s') {c : Nat} (hc : c < s.chanCount) :
    c < s'.chanCount ∧ (s'.chans c).peer = (s.chans c).peer ∧
      ((s'.chans c).rx = true → (s.chans c).rx = true) := by
  cases m <;> grind [upd, Chan.push_peer, Chan.push_rx]

theorem Move.closed_inv {c : Nat} (m : Move s (.recv c) .closed s') :
    c < s.chanCount ∧ (s.chans c).rx = true ∧ s.hasSender c = false := by
  cases m with
  | closed _ hc hrx _ _ _ hs => exact ⟨hc, hrx, hs⟩

theorem Move.chan_new (m : Move s act o s') {c : Nat} (hc : c < s'.chanCount) :
    c < s.chanCount ∨ (c = s.chanCount ∧ (
      (∃ a, act = .connect a ∧ o = .connection c a ∧ (s'.chans c).peer = a ∧
        s'.receivers.get a = some c) ∨
      ∃ a p, act = .task ∧ o = .admitted a p c ∧ (s'.chans c).peer = a ∧ s'.pc = .queued a p c)) := by
  cases m
  case connect a ho =>
    refine (Nat.lt_succ_iff_lt_or_eq.mp hc).imp_right fun h => ⟨h, .inl ⟨a, rfl, ?_, ?_, ?_⟩⟩
    · rw [h]
    · simp only [h, upd_same]
    · rw [Map.get_insert, if_pos rfl, h]
  case enqueue a p l hpc hl hrx hlen =>
    refine (Nat.lt_succ_iff_lt_or_eq.mp hc).imp_right fun h => ⟨h, .inr ⟨a, p, rfl, ?_, ?_, ?_⟩⟩
    · rw [h]
    · simp only [h, upd_same]
    · rw [h]
  all_goals exact .inl hc

theorem Only.back (m : Move s act o s') {c : Nat} (h : Only s' c) (hc : c < s.chanCount) :
    Only s c := by
  refine ⟨hc, fun d hd hp => h.2 d (m.chan_keep hd).1 ?_⟩
  rw [(m.chan_keep hd).2.1, (m.chan_keep hc).2.1, hp]

theorem sole_stale (t : Tables s) (h : Sole s) (m : Move s act o s') :
    ∀ a p, s'.pc = .stale a p → ∃ d, d < s'.chanCount ∧ (s'.chans d).peer = a ∧
      (s'.chans d).rx = false := by
  intro a p hp
  have back : (∃ d, d < s.chanCount ∧ (s.chans d).peer = a ∧ (s.chans d).rx = false) →
      ∃ d, d < s'.chanCount ∧ (s'.chans d).peer = a ∧ (s'.chans d).rx = false := by
    rintro ⟨d, h1, h2, h3⟩
    obtain ⟨k1, k2, k3⟩ := m.chan_keep h1
    refine ⟨d, k1, k2.trans h2, ?_⟩
    cases hr : (s'.chans d).rx with
    | false => rfl
    | true => rw [k3 hr] at h3; cases h3
  have h1 := h.stale a p
  have h2 := t.pc
  apply back
  cases m <;> first
    | exact h1 hp
    | (cases hp; done)
    | skip
  case refuse b q c hpc hrx =>
    cases hp
    obtain ⟨h3, h4⟩ := h2 a c (by rw [hpc]; rfl)
    exact ⟨c, h3, h4, hrx⟩

theorem sole_reg (t : Tables s) (h : Sole s) (m : Move s act o s') :
    ∀ c, Only s' c → (s'.chans c).rx = true →
    s'.receivers.get (s'.chans c).peer = some c ∨ (∃ p, s'.pc = .queued (s'.chans c).peer p c) ∨
      s'.pc = .filled (s'.chans c).peer c := by
  intro c hc hrx
  rcases m.chan_new hc.1 with hlt | ⟨_, ⟨a, _, _, h1, h2⟩ | ⟨a, p, _, _, h1, h2⟩⟩
  · have ho := hc.back m hlt
    have h1 := h.reg c ho ((m.chan_keep hlt).2.2 hrx)
    have hnew := hc.2
    rw [(m.chan_keep hlt).2.1] at hnew ⊢
    have hst := h.stale
    have hpc := t.pc
    have hrx0 := (m.chan_keep hlt).2.2 hrx
    have hon := ho.2
    clear ho h hrx hc
    generalize hp : (s.chans c).peer = b at *
    have hall : ∀ d, d < s.chanCount → (s.chans d).peer = b → d = c := hon
    cases m
    case remove a p hq =>
      obtain ⟨d, h2, h3, h4⟩ := hst a p hq
      have hne : a ≠ b := by
        rintro rfl
        rw [hall d h2 h3, hrx0] at h4
        cases h4
      rcases h1 with h1 | ⟨q, h1⟩ | h1
      · refine .inl ?_
        rw [Map.get_remove, if_neg hne]
        exact h1
      · rw [hq] at h1; cases h1
      · rw [hq] at h1; cases h1
    case store a d hq =>
      obtain ⟨h2, h3⟩ := hpc a d (by rw [hq]; rfl)
      refine .inl ?_
      rw [Map.get_insert]
      split
      · rename_i heq
        rw [hall d h2 (h3.trans heq)]
      · rename_i heq
        rcases h1 with h1 | ⟨q, h1⟩ | h1
        · exact h1
        · rw [hq] at h1; cases h1
        · rw [hq] at h1; cases h1; exact absurd rfl heq
    case connect a ho =>
      rcases h1 with h1 | h1
      · refine .inl ?_
        rw [Map.get_insert]
        split
        · rename_i heq
          have := hnew s.chanCount (Nat.lt_succ_self _) (by simp only [upd_same]; exact heq)
          rw [this]
        · exact h1
      · exact .inr h1
    all_goals grind
  · exact .inl (h1 ▸ h2)
  · exact .inr (.inl ⟨p, h1 ▸ h2⟩)

end

theorem sole {tr : Trace} {s : State} (e : Exec step init tr s) : Sole s := by
  induction e with
  | nil => exact ⟨nofun, fun c h => absurd h.1 (Nat.not_lt_zero c)⟩
  | snoc e hs ih =>
    have t := (exec_inv e).1
    have m := move_of_step hs
    exact ⟨sole_stale t ih m, sole_reg t ih m⟩

/-- Every channel was made by `connect` or for a packet of a new sender. -/
theorem chan_made {tr : Trace} {s : State} (e : Exec step init tr s) {c : Nat}
    (hc : c < s.chanCount) :
    (.connect (s.chans c).peer, .connection c (s.chans c).peer) ∈ tr ∨
      ∃ p, (.task, .admitted (s.chans c).peer p c) ∈ tr := by
  induction e with
  | nil => exact absurd hc (Nat.not_lt_zero c)
  | @snoc tr s s' a o e hs ih =>
    have m := move_of_step hs
    rcases m.chan_new hc with hlt | ⟨_, ⟨b, rfl, rfl, h1, _⟩ | ⟨b, p, rfl, rfl, h1, _⟩⟩
    · rw [(m.chan_keep hlt).2.1]
      exact (ih hlt).imp (List.mem_append_left _) fun ⟨p, h⟩ => ⟨p, List.mem_append_left _ h⟩
    · rw [h1]
      exact .inl (List.mem_append_right _ (List.mem_singleton_self _))
    · rw [h1]
      exact .inr ⟨p, List.mem_append_right _ (List.mem_singleton_self _)⟩

theorem ended_hist {tr : Trace} {s : State} (e : Exec step init tr s) :
    (s.owner = false → (.close, .none) ∈ tr) ∧ (s.pc = .stopped → (.failure, .none) ∈ tr) := by
  induction e with
  | nil => exact ⟨nofun, nofun⟩
  | @snoc tr s s' a o e hs ih =>
    have m := move_of_step hs
    obtain ⟨h1, h2⟩ := ih
    simp only [List.mem_append, List.mem_singleton]
    cases m <;> grind

theorem unshared {tr : Trace} {s : State} (e : Exec step init tr s) (h : s.shared = false) :
    (.close, .none) ∈ tr ∧ (.failure, .none) ∈ tr := by
  simp only [State.shared, Bool.or_eq_false_iff, bne_eq_false_iff_eq] at h
  exact ⟨(ended_hist e).1 h.1, (ended_hist e).2 h.2⟩

/-- A channel is reported as closed only if the tables are gone or there was another channel for the
address. -/
theorem closed_why {tr : Trace} {s s' : State} {c : Nat} (e : Exec step init tr s)
    (h : step s (.recv c) = some (s', .closed)) :
    s.shared = false ∨ ∃ d, d ≠ c ∧ d < s.chanCount ∧ (s.chans d).peer = (s.chans c).peer := by
  obtain ⟨hc, hrx, hn⟩ := (move_of_step h).closed_inv
  cases hsh : s.shared with
  | false => exact .inl rfl
  | true =>
    refine .inr ?_
    apply Classical.byContradiction
    intro hno
    have ho : Only s c := ⟨hc, fun d hd hp => Decidable.byContradiction fun hdc =>
      hno ⟨d, hdc, hd, hp⟩⟩
    have : s.hasSender c = true := by
      simp only [State.hasSender, hsh, Bool.true_and, Bool.or_eq_true, List.any_eq_true]
      rcases (sole e).reg c ho hrx with h | ⟨p, h⟩ | h
      · exact .inl ⟨_, Map.mem_of_get h, by simp⟩
      · exact .inr (by simp [h])
      · exact .inr (by simp [h])
    rw [this] at hn
    cases hn

end Rsomeip.Rt.Udp
