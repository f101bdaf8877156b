import Verif.Props.Rt.Crowd

/-! # C116: an accepted connection has the datagram it was made by -/

namespace Rsomeip

open Rt Rt.Udp Spec.Udp

namespace Rt.Udp

/-- Connections made by datagrams have room for 32 packets. -/
theorem exec_cap {tr : Trace} {s : State} (e : Exec step init tr s) {a : Addr} {p : Bytes} {c : Nat}
    (h : (.task, .admitted a p c) ∈ tr) : c < s.chanCount ∧ (s.chans c).cap = 32 := by
  induction e with
  | nil => cases h
  | snoc e hs ih =>
    rename_i tr s s' x o
    have m := move_of_step hs
    have t := (exec_inv e).1
    rcases List.mem_append.mp h with h | h
    · obtain ⟨h1, h2⟩ := ih h
      cases m <;> grind [upd, Chan.push_cap]
    · rw [List.mem_singleton] at h
      cases h
      cases m
      exact ⟨Nat.lt_succ_self _, by simp only [upd_same]⟩

end Rt.Udp

/-- Nobody has received from connection `c`, and its receiver has not been dropped. -/
def Spec.Udp.Untouched (c : Nat) (tr : Trace) : Prop := ∀ o, (.recv c, o) ∉ tr ∧ (.dropReceiver c, o) ∉ tr

theorem seen_untouched {c : Nat} {tr : Trace} (h : Untouched c tr) : seen c tr = [] := by
  rw [seen, List.flatMap_eq_nil_iff]
  rintro ⟨x, o⟩ hx
  split
  · rename_i c' p heq
    cases heq
    rw [if_neg]
    rintro rfl
    exact (h _).1 hx
  · rename_i c' p heq
    cases heq
    rw [if_neg]
    rintro rfl
    exact (h _).1 hx
  · rfl

/-- What `recv` does on a connection that was accepted and not read from since. -/
theorem first_recv {tr : Trace} {s : State} {l c : Nat} {a : Addr} (e : Exec step init tr s)
    (h : (.accept l, .connection c a) ∈ tr) (hu : Untouched c tr) :
    ∃ p, (.task, .admitted a p c) ∈ tr ∧ p ∈ arrivedFrom a tr ∧
      ((∃ s' o, step s (.recv c) = some (s', o) ∧
          (o = .packet p ∧ (into c tr).length ≤ 32 ∨
            ∃ n, 0 < n ∧ o = .lagged n ∧ (into c tr).length = 32 + n)) ∨
        step s (.recv c) = none ∧ s.pc = .queued a p c) := by
  obtain ⟨p, hp, hpa⟩ := (C58_first_packet e).2 l c a h
  refine ⟨p, hp, hpa, ?_⟩
  obtain ⟨t, g, cl⟩ := exec_inv e
  have hc : (c, a) ∈ connections tr := List.mem_filterMap.mpr ⟨_, h, rfl⟩
  obtain ⟨h1, -, h2⟩ := g.conns _ hc
  have hrx := exec_held e (hu _).2 h2
  have hcap := (exec_cap e hp).2
  have hr := (exec_roomy e c h1).2 hrx
  have hk := (t.caps c h1).2
  obtain ⟨k1, k2⟩ := Rt.Udp.chan_complete e c hrx
  rw [seen_untouched hu] at k1 k2
  simp only [List.nil_append, List.length_nil, Nat.zero_add] at k1 k2
  have hcall : step s (.recv c) = recv s c := rfl
  rw [hcall, recv, if_pos ⟨h1, hrx, h2⟩]
  by_cases hm : (s.chans c).missed > 0
  · rw [if_pos hm]
    exact .inl ⟨_, _, rfl, .inr ⟨_, hm, rfl, by rw [← k2, hr hm, hcap, Nat.add_comm]⟩⟩
  · rw [if_neg hm]
    have hm0 : (s.chans c).missed = 0 := Nat.eq_zero_of_not_pos hm
    rw [hm0] at k1 k2
    cases hq : (s.chans c).queue with
    | cons q qs =>
      refine .inl ⟨_, _, rfl, .inl ⟨?_, by omega⟩⟩
      rcases (cl.admitted a p c hp).2 with ⟨h0, -⟩ | ⟨rest, h0⟩
      · rw [h0, hq] at k2
        simp at k2
      · rw [hq, h0] at k1
        rw [k1.1]
    | nil =>
      rw [hq] at k2
      rcases (cl.admitted a p c hp).2 with ⟨-, h0 | h0⟩ | ⟨rest, h0⟩
      · refine .inr ⟨?_, h0⟩
        simp [State.hasSender, h0]
      · rw [hrx] at h0; cases h0
      · rw [h0] at k2
        simp at k2

/-- **C116**, the part that holds. When the receiving task is waiting for the next datagram, the first
`recv` on a connection that `accept` returned answers at once, with the datagram that made the
connection, which came from the address that `accept` reported; unless more than 32 datagrams were put
into it, of which the oldest are then missing and counted. Missing: `accept` can return while the task
is still dealing with the datagram (`C116_false`). -/
theorem C116_present_partial {tr : Trace} {s s₁ : State} {l c : Nat} {a b : Addr} {q : Bytes} {o₁ : Obs}
    (e : Exec step init tr s) (h : (.accept l, .connection c a) ∈ tr) (hu : Untouched c tr)
    (hw : step s (.datagram b q) = some (s₁, o₁)) :
    ∃ p, (.task, .admitted a p c) ∈ tr ∧ p ∈ arrivedFrom a tr ∧
      ∃ s' o, step s (.recv c) = some (s', o) ∧
        (o = .packet p ∧ (into c tr).length ≤ 32 ∨
          ∃ n, 0 < n ∧ o = .lagged n ∧ (into c tr).length = 32 + n) := by
  obtain ⟨p, h1, h2, h3 | ⟨-, h3⟩⟩ := first_recv e h hu
  · exact ⟨p, h1, h2, h3⟩
  · simp [step, h3] at hw

/-- **C116**, otherwise: if `recv` has to wait, then only for the next step of the receiving task, which
puts the datagram into the connection. -/
theorem C116_soon {tr : Trace} {s : State} {l c : Nat} {a : Addr} (e : Exec step init tr s)
    (h : (.accept l, .connection c a) ∈ tr) (hu : Untouched c tr) (hw : step s (.recv c) = none) :
    ∃ p s' s'', (.task, .admitted a p c) ∈ tr ∧ p ∈ arrivedFrom a tr ∧
      Exec step s [(.task, .routed a p c), (.recv c, .packet p)] s'' ∧ step s .task = some (s', .routed a p c) := by
  obtain ⟨p, h1, h2, ⟨s', o, h3, -⟩ | ⟨-, h3⟩⟩ := first_recv e h hu
  · rw [hw] at h3; cases h3
  · obtain ⟨t, g, cl⟩ := exec_inv e
    have hc : (c, a) ∈ connections tr := List.mem_filterMap.mpr ⟨_, h, rfl⟩
    obtain ⟨k1, -, k2⟩ := g.conns _ hc
    have hrx := exec_held e (hu _).2 k2
    have hs : step s .task = some ({ s with chans := upd s.chans c ((s.chans c).push p), pc := .filled a c },
        .routed a p c) := by
      simp [step, task, h3, hrx]
    have hz : (s.chans c).missed = 0 ∧ (s.chans c).queue = [] := by
      simp only [step, recv] at hw
      rw [if_pos ⟨k1, hrx, k2⟩] at hw
      split at hw
      · cases hw
      · refine ⟨by omega, ?_⟩
        split at hw
        · cases hw
        · assumption
    have hp : (s.chans c).push p = { s.chans c with queue := [p] } := by
      rw [Chan.push, if_pos (by rw [hz.2, (exec_cap e h1).2]; exact Nat.zero_lt_succ _), hz.2]
      rfl
    have hr : ∀ t : State, t.chanCount = s.chanCount → t.chans c = { s.chans c with queue := [p] } →
        ∃ t', step t (.recv c) = some (t', .packet p) := by
      intro t h1 h2
      simp only [step, recv, h1, h2]
      rw [if_pos ⟨k1, hrx, k2⟩, if_neg (by omega)]
      exact ⟨_, rfl⟩
    obtain ⟨t', ht⟩ := hr { s with chans := upd s.chans c ((s.chans c).push p), pc := .filled a c } rfl
      (by simp only [upd_same, hp])
    exact ⟨p, _, t', h1, h2, (Exec.nil.snoc hs).snoc ht, hs⟩

/-- A history in which `accept` returns before the datagram is in the connection. -/
def Spec.Udp.hasty : List Action := [.listen 1, .datagram 7 [1], .task, .task, .accept 0]

/-- **C116** is false: `accept` returns a connection, and the datagram that made it is not there. -/
theorem C116_false : ∃ tr s, Exec step init tr s ∧ (.accept 0, .connection 0 7) ∈ tr ∧
    Untouched 0 tr ∧ step s (.recv 0) = none := by
  obtain ⟨tr, s, e, h⟩ := exec_by (step := step) (s := init) hasty
    (fun tr s => decide (tr = [(.listen 1, .listening 0), (.datagram 7 [1], .none), (.task, .none),
      (.task, .admitted 7 [1] 0), (.accept 0, .connection 0 7)] ∧ (step s (.recv 0)).isNone = true))
    (by decide +kernel)
  obtain ⟨rfl, h'⟩ := of_decide_eq_true h
  exact ⟨_, s, e, by simp, by simp [Untouched], by simpa using h'⟩

/-- **C116**, in any case: whatever `recv` returns first on an accepted connection, if it is a packet, it
is the one that made the connection. -/
theorem C116_first {tr : Trace} {s : State} {l c : Nat} {a : Addr} {q : Bytes}
    (e : Exec step init (tr ++ [(.recv c, .packet q)]) s) (h : (.accept l, .connection c a) ∈ tr)
    (hu : Untouched c tr) : (.task, .admitted a q c) ∈ tr ∧ q ∈ arrivedFrom a tr := by
  obtain ⟨s₁, e₁, hs⟩ := e.last
  obtain ⟨p, h1, h2, ⟨s', o, h3, h4⟩ | ⟨h3, -⟩⟩ := first_recv e₁ h hu
  · rw [hs] at h3
    cases h3
    rcases h4 with ⟨h4, -⟩ | ⟨n, -, h4, -⟩
    · cases h4; exact ⟨h1, h2⟩
    · cases h4
  · rw [hs] at h3; cases h3

/-- The task has dealt with the datagram. -/
example : ∃ tr s, Exec step init tr s ∧ (.accept 0, .connection 0 7) ∈ tr ∧ Untouched 0 tr ∧
    ∃ s₁ o₁, step s (.datagram 7 [2]) = some (s₁, o₁) := by
  obtain ⟨tr, s, e, h⟩ := exec_by (step := step) (s := init) (hasty ++ [.task, .task])
    (fun tr s => decide (tr = [(.listen 1, .listening 0), (.datagram 7 [1], .none), (.task, .none),
      (.task, .admitted 7 [1] 0), (.accept 0, .connection 0 7), (.task, .routed 7 [1] 0), (.task, .none)] ∧
      s.pc = .idle))
    (by decide +kernel)
  obtain ⟨rfl, h'⟩ := of_decide_eq_true h
  exact ⟨_, s, e, by simp, by simp [Untouched], _, _, by simp only [step, if_pos h']; rfl⟩

/-- More than 32 datagrams come before the connection is read from, and the first one is lost. -/
example : ∃ tr s, Exec step init tr s ∧ (.accept 0, .connection 0 7) ∈ tr ∧
    (.recv 0, .lagged 1) ∈ tr ∧ (into 0 tr).length = 33 := by
  obtain ⟨tr, s, e, h⟩ := exec_by (step := step) (s := init)
    (hasty ++ [.task, .task] ++ (List.replicate 32 [.datagram 7 [2], .task, .task]).flatten ++ [.recv 0])
    (fun tr _ => decide ((.accept 0, .connection 0 7) ∈ tr ∧ (.recv 0, .lagged 1) ∈ tr ∧
      (into 0 tr).length = 33)) (by decide +kernel)
  exact ⟨tr, s, e, of_decide_eq_true h⟩

end Rsomeip
