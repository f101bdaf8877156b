import Verif.Props.Rt.UdpFirst

/-! # C119: what `recv` on a UDP connection answers -/

namespace Rsomeip

open Rt Rt.Udp Spec.Udp

/-- The packets put into connection `c` that `recv` has neither returned nor reported as missed. -/
def Spec.Udp.unread (c : Nat) (tr : Trace) : List Bytes := (into c tr).drop (seen c tr).length

/-- How many packets connection `c` keeps: 8 if it was made by `connect`, otherwise 32. -/
def Spec.Udp.room (c : Nat) (tr : Trace) : Nat :=
  if tr.any (fun | (.connect _, .connection c' _) => c' = c | _ => false) then 8 else 32

namespace Rt.Udp

theorem room_snoc (c : Nat) (tr : Trace) (x : Action × Obs) : room c (tr ++ [x]) =
    if (match x with | (.connect _, .connection c' _) => decide (c' = c) | _ => false) then 8 else room c tr := by
  simp only [room, List.any_append, List.any_cons, List.any_nil, Bool.or_false]
  grind

theorem room_eq {tr : Trace} {s : State} (e : Exec step init tr s) {c : Nat} (hc : c < s.chanCount) :
    (s.chans c).cap = room c tr := by
  induction e with
  | nil => cases hc
  | @snoc tr s s' x o e hs ih =>
    have m := move_of_step hs
    have h0 : ∀ d, s.chanCount ≤ d → room d tr = 32 := by
      intro d hd
      rw [room, if_neg]
      rw [List.any_eq_true]
      rintro ⟨⟨y, w⟩, hy, h⟩
      split at h
      · rename_i a c' a' heq
        cases heq
        have := ((exec_inv e).2.1.conns (c', a') (List.mem_filterMap.mpr ⟨_, hy, rfl⟩)).1
        have h : c' = d := of_decide_eq_true h
        simp only at this
        omega
      · cases h
    rw [room_snoc]
    cases m <;> grind [upd, Chan.push_cap]

theorem shows_drop : ∀ (os : List (Option Bytes)) (qs ps : List Bytes), Shows (os ++ qs.map some) ps →
    (os ++ qs.map some).length = ps.length → ps.drop os.length = qs
  | [], [], ps, _, h => by
    simp only [List.map_nil, List.append_nil, List.length_nil] at h
    simpa using List.length_eq_zero_iff.mp h.symm
  | [], q :: qs, [], h, _ => by simp [Shows] at h
  | [], q :: qs, p :: ps, h, hl => by
    simp only [List.nil_append, List.map_cons, Shows] at h
    have := shows_drop [] qs ps h.2 (by simpa using hl)
    simp only [List.length_nil, List.drop_zero] at this ⊢
    rw [this, h.1]
  | o :: os, qs, [], h, hl => by simp at hl
  | o :: os, qs, p :: ps, h, hl => by
    have h' : Shows (os ++ qs.map some) ps := by
      cases o with
      | none => exact h
      | some o => exact h.2
    simpa using shows_drop os qs ps h' (by simpa using hl)

/-- The unread packets, and what is kept of them. -/
theorem unread_eq {tr : Trace} {s : State} (e : Exec step init tr s) {c : Nat} (hc : c < s.chanCount)
    (hrx : (s.chans c).rx = true) :
    (unread c tr).drop (s.chans c).missed = (s.chans c).queue ∧
      (unread c tr).length = (s.chans c).missed + (s.chans c).queue.length ∧
      ((s.chans c).missed = 0 → (unread c tr).length ≤ room c tr) ∧
      (0 < (s.chans c).missed → (s.chans c).queue.length = room c tr) := by
  obtain ⟨h1, h2⟩ := chan_complete e c hrx
  have h3 := shows_drop _ _ _ h1 (by simp; omega)
  have h4 := (exec_inv e).1.caps c hc
  have h5 := (exec_roomy e c hc).2 hrx
  rw [room_eq e hc] at h4 h5
  have h6 : (unread c tr).length = (s.chans c).missed + (s.chans c).queue.length := by
    rw [unread, List.length_drop]; omega
  refine ⟨?_, h6, by omega, fun h => h5 h⟩
  rw [unread, List.drop_drop, ← h3]
  simp

end Rt.Udp

/-- **C119.** What `recv` on a connection answers follows from the history. If more packets are unread
than the connection keeps, it reports how many are too many. Otherwise it returns the oldest unread
packet. If nothing is unread it returns no packet and reports nothing as missed. -/
theorem C119_recv {tr : Trace} {s : State} {c : Nat} (e : Exec step init tr s) (ho : ReceiverOpen c tr) :
    (room c tr < (unread c tr).length →
      ∃ s', step s (.recv c) = some (s', .lagged ((unread c tr).length - room c tr))) ∧
    (∀ p ps, unread c tr = p :: ps → (unread c tr).length ≤ room c tr →
      ∃ s', step s (.recv c) = some (s', .packet p)) ∧
    (unread c tr = [] → ∀ s' o, step s (.recv c) = some (s', o) → o = .closed) := by
  obtain ⟨hrx, hh⟩ := (receiver_open_iff e c).mp ho
  have hc : c < s.chanCount := by
    rcases Nat.lt_or_ge c s.chanCount with h | h
    · exact h
    · rw [((exec_inv e).1.high c h).1] at hrx; cases hrx
  obtain ⟨h1, h2, h3, h4⟩ := unread_eq e hc hrx
  have hcall : step s (.recv c) = recv s c := rfl
  rw [hcall, recv, if_pos ⟨hc, hrx, hh⟩]
  by_cases hm : (s.chans c).missed > 0
  · have := h4 hm
    rw [if_pos hm]
    refine ⟨fun _ => ⟨_, by rw [h2, this, Nat.add_sub_cancel]⟩, fun p ps _ hl => by omega, fun hn => ?_⟩
    rw [hn, List.length_nil] at h2
    omega
  · have hz : (s.chans c).missed = 0 := Nat.eq_zero_of_not_pos hm
    have := h3 hz
    rw [if_neg hm]
    rw [hz, List.drop_zero] at h1
    refine ⟨fun _ => by omega, fun p ps hp _ => ?_, fun hn => ?_⟩
    · rw [← h1, hp]; exact ⟨_, rfl⟩
    · rw [← h1, hn]
      intro s' o h
      dsimp only at h
      split at h
      · cases h
      · cases h; rfl

/-- **C119.** As the documentation says, `recv` after a report of missed packets returns the oldest packet
still kept: exactly as many were skipped as the report says, and as many are left as the connection
keeps. -/
theorem C119_oldest {tr : Trace} {s : State} {c n : Nat} (e : Exec step init (tr ++ [(.recv c, .lagged n)]) s)
    (ho : ReceiverOpen c tr) :
    0 < n ∧ (unread c tr).length = n + room c tr ∧
      ∃ p ps s', (unread c tr).drop n = p :: ps ∧ step s (.recv c) = some (s', .packet p) := by
  obtain ⟨s₁, e₁, hs⟩ := e.last
  obtain ⟨h1, h2, h3⟩ := C119_recv e₁ ho
  have hl : room c tr < (unread c tr).length := by
    rcases Nat.lt_or_ge (room c tr) (unread c tr).length with h | h
    · exact h
    · cases hu : unread c tr with
      | nil => cases h3 hu _ _ hs
      | cons p ps =>
        obtain ⟨s', h'⟩ := h2 p ps hu h
        rw [hs] at h'; cases h'
  obtain ⟨s', h'⟩ := h1 hl
  rw [hs] at h'
  injection h' with h'
  injection h' with _ h'
  injection h' with h'
  subst h'
  have ho' : ReceiverOpen c (tr ++ [(.recv c, .lagged ((unread c tr).length - room c tr))]) := by
    obtain ⟨k1, k2⟩ := ho
    exact ⟨by rw [connections_snoc, List.map_append]; exact List.mem_append_left _ k1,
      by simpa using k2⟩
  have hu : unread c (tr ++ [(.recv c, .lagged ((unread c tr).length - room c tr))]) =
      (unread c tr).drop ((unread c tr).length - room c tr) := by
    simp only [unread, into, fates, seen, List.filterMap_append, List.flatMap_append]
    simp
  have hr : room c (tr ++ [(.recv c, .lagged ((unread c tr).length - room c tr))]) = room c tr := by
    rw [room_snoc]; rfl
  have hpos : 0 < room c tr := by rw [room]; split <;> decide
  refine ⟨by omega, by omega, ?_⟩
  cases hd : (unread c tr).drop ((unread c tr).length - room c tr) with
  | nil =>
    have := congrArg List.length hd
    simp only [List.length_drop, List.length_nil] at this
    omega
  | cons p ps =>
    obtain ⟨s'', h''⟩ := (C119_recv e ho').2.1 p ps (hu.trans hd) (by
      rw [hr, hu, List.length_drop]; omega)
    exact ⟨p, ps, s'', rfl, h''⟩

/-- Ten datagrams come for a connection that keeps eight: `recv` reports two, and then returns the third. -/
def Spec.Udp.tenArrive : List Action :=
  .connect 7 :: (List.range 10).flatMap (fun i => [.datagram 7 [UInt8.ofNat i], .task, .task])

example : ∃ tr s, Exec step init tr s ∧ ReceiverOpen 0 tr ∧ room 0 tr = 8 ∧
    (unread 0 tr).length = 10 ∧ ∃ s', step s (.recv 0) = some (s', .lagged 2) := by
  obtain ⟨tr, s, e, h⟩ := exec_by (step := step) (s := init) tenArrive
    (fun tr _ => decide (ReceiverOpen 0 tr ∧ room 0 tr = 8 ∧ (unread 0 tr).length = 10)) (by decide +kernel)
  obtain ⟨h1, h2, h3⟩ := of_decide_eq_true h
  obtain ⟨s', h4⟩ := (C119_recv e h1).1 (by omega)
  exact ⟨tr, s, e, h1, h2, h3, s', by rw [h4, h2, h3]⟩

example : ∃ tr s, Exec step init (tr ++ [(.recv 0, .lagged 2)]) s ∧ ReceiverOpen 0 tr ∧
    (unread 0 tr).drop 2 = [[2], [3], [4], [5], [6], [7], [8], [9]] := by
  obtain ⟨tr, s, e, h⟩ := exec_by (step := step) (s := init) tenArrive
    (fun tr s => decide (ReceiverOpen 0 tr ∧ (unread 0 tr).drop 2 = [[2], [3], [4], [5], [6], [7], [8], [9]] ∧
      (step s (.recv 0)).map Prod.snd = some (.lagged 2))) (by decide +kernel)
  obtain ⟨h1, h2, h3⟩ := of_decide_eq_true h
  obtain ⟨⟨s', o⟩, h4, h5⟩ := Option.map_eq_some_iff.mp h3
  cases h5
  exact ⟨tr, s', e.snoc h4, h1, h2⟩

end Rsomeip
