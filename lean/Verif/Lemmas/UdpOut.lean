import Verif.Lemmas.UdpKept

/-! # Channels that nobody sends to any more -/

namespace Rsomeip.Rt.Udp

open Spec.Udp

/-- Channel `c` has no sender. -/
structure Out (c : Nat) (s : State) : Prop where
  lt : c < s.chanCount
  table : ∀ e ∈ s.receivers.entries, e.2 ≠ c
  pc : ∀ a, s.pc.chan ≠ some (a, c)

section
variable {s s' : State} {act : Action} {o : Obs} {c : Nat}

theorem Out.next (h : Out c s) (m : Move s act o s') : Out c s' := by
  obtain ⟨h1, h2, h3⟩ := h
  refine ⟨(m.chan_keep h1).1, ?_, ?_⟩
  · cases m
    case remove => exact fun e he => h2 e ((Map.mem_remove ..).mp he).1
    case store a d hpc =>
      intro e he
      rcases (Map.mem_insert ..).mp he with rfl | ⟨he, _⟩
      · rintro rfl; exact h3 a (by rw [hpc]; rfl)
      · exact h2 e he
    case connect a ho =>
      intro e he
      rcases (Map.mem_insert ..).mp he with rfl | ⟨he, _⟩
      · exact fun h => Nat.lt_irrefl _ (h ▸ h1)
      · exact h2 e he
    all_goals exact h2
  · cases m
    case hit a p d hpc hg =>
      intro b hb
      cases hb
      exact h2 _ (Map.mem_of_get hg) rfl
    case enqueue a p l hpc hl hrx hlen =>
      intro b hb
      cases hb
      exact Nat.lt_irrefl _ h1
    case fill a p d hpc hrx => 
      intro b hb
      cases hb
      exact h3 a (by rw [hpc]; rfl)
    case spill a p d hpc hrx => 
      intro b hb
      cases hb
      exact h3 a (by rw [hpc]; rfl)
    all_goals first | exact h3 | exact fun b hb => (nomatch hb)

theorem Out.quiet (h : Out c s) (m : Move s act o s') : into c [(act, o)] = [] := by
  obtain ⟨h1, h2, h3⟩ := h
  have h4 : ∀ a d, s.pc.chan = some (a, d) → d ≠ c := fun a d hd hc => h3 a (hc ▸ hd)
  cases m
  case deliver a p d hpc hrx =>
    simp [into, fates, h4 a d (by rw [hpc]; rfl)]
  case fill a p d hpc hrx =>
    simp [into, fates, h4 a d (by rw [hpc]; rfl)]
  all_goals first | rfl | simp [into, fates]

theorem Out.sender (h : Out c s) : s.hasSender c = false := by
  obtain ⟨h1, h2, h3⟩ := h
  have h4 : s.receivers.entries.any (fun e => e.2 = c) = false := by
    simpa using h2
  simp only [State.hasSender, h4, Bool.and_false, Bool.false_or]
  cases hp : s.pc <;> simp
  all_goals rw [hp] at h3; rintro rfl; exact h3 _ rfl

theorem Out.exec {tr : Trace} (h : Out c s) (e : Exec step s tr s') : Out c s' ∧ into c tr = [] := by
  induction e with
  | nil => exact ⟨h, rfl⟩
  | snoc _ hs ih =>
    refine ⟨ih.1.next (move_of_step hs), ?_⟩
    rw [into_snoc, ih.2, ih.1.quiet (move_of_step hs)]
    rfl

end

/-- Connecting to an address takes the sender of all older connections to it away. -/
theorem out_of_connect {s s' : State} {c : Nat} {a : Addr} {o : Obs} (t : Tables s)
    (hc : c < s.chanCount) (hp : (s.chans c).peer = a) (hpc : Spec.handling s.pc ≠ some a)
    (h : step s (.connect a) = some (s', o)) : Out c s' := by
  have m := move_of_step h
  cases m with
  | connect _ ho =>
    refine ⟨Nat.lt_succ_of_lt hc, ?_, ?_⟩
    · intro e he
      rcases (Map.mem_insert ..).mp he with rfl | ⟨he, hne⟩
      · exact fun h => Nat.lt_irrefl _ (h ▸ hc)
      · rintro rfl
        exact hne ((t.receivers e he).2.symm.trans hp)
    · intro b hb
      have hb : s.pc.chan = some (b, c) := hb
      have h1 := (t.pc b c hb).2
      have : b = a := h1.symm.trans hp
      subst this
      apply hpc
      cases hq : s.pc <;> rw [hq] at hb <;> simp [Pc.chan] at hb <;> simp [Spec.handling, hb]

end Rsomeip.Rt.Udp
