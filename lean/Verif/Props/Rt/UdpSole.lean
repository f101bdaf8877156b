import Verif.Props.Rt.Udp

/-! # C60: connections that have an address for themselves -/

namespace Rsomeip

open Rt Rt.Udp Spec Spec.Udp

/-- **C60**, when connections are reported as closed, for every history: only if another connection
to the same address was made, or the `UdpSocket` was dropped and reading from the operating system's
socket has failed. -/
theorem C60_why_closed {tr : Trace} {s : State} {c : Nat}
    (e : Exec step init (tr ++ [(.recv c, .closed)]) s) :
    (∃ a d, d ≠ c ∧ Made tr c a ∧ Made tr d a) ∨
      ((.close, .none) ∈ tr ∧ (.failure, .none) ∈ tr) := by
  obtain ⟨s₁, e₁, hs⟩ := e.last
  rcases closed_why e₁ hs with h | ⟨d, h1, h2, h3⟩
  · exact .inr (unshared e₁ h)
  · exact .inl ⟨_, d, h1, chan_made e₁ (move_of_step hs).closed_inv.1, h3 ▸ chan_made e₁ h2⟩

/-- Both happen: a second connection closes the first one; a socket that was dropped and fails. -/
example : (∃ s, Exec step init ([(.connect 7, .connection 0 7), (.connect 7, .connection 1 7)] ++
      [(.recv 0, .closed)]) s) ∧
    ∃ s, Exec step init ([(.connect 7, .connection 0 7), (.datagram 7 [1], .none), (.task, .none),
      (.task, .routed 7 [1] 0), (.close, .none), (.failure, .none), (.recv 0, .packet [1])] ++
      [(.recv 0, .closed)]) s :=
  ⟨⟨_, exec_of_perform (as := [.connect 7, .connect 7, .recv 0]) rfl⟩,
    ⟨_, exec_of_perform (as := [.connect 7, .datagram 7 [1], .task, .task, .close, .failure, .recv 0,
      .recv 0]) rfl⟩⟩

/-- **C60**, what a second connection does to the first, for every continuation: once an address that
already has a connection is connected to again, while the background task is not busy with a packet
from there, no packet is ever put into the older connection again, and reading from it never waits:
as long as its holder could still drop it, a call returns what is left or reports the end. -/
theorem C60_cut_off {tr tr' : Trace} {s s₁ s₂ : State} {c : Nat} {a : Addr} {o : Obs}
    (e : Exec step init tr s) (hc : Made tr c a) (hpc : busy tr ≠ some a)
    (h : step s (.connect a) = some (s₁, o)) (e' : Exec step s₁ tr' s₂) :
    into c tr' = [] ∧
      ((step s₂ (.dropReceiver c)).isSome = true → (step s₂ (.recv c)).isSome = true) := by
  obtain ⟨h1, h2⟩ := made_peer e hc
  rw [busy_eq e] at hpc
  obtain ⟨h3, h4⟩ := (out_of_connect (exec_inv e).1 h1 h2 hpc h).exec e'
  refine ⟨h4, fun hd => ?_⟩
  simp only [step, dropReceiver, recv] at hd ⊢
  split at hd
  · rw [if_pos ‹_›]
    split
    · rfl
    · split
      · rfl
      · rw [h3.sender]
        rfl
  · cases hd

/-- A connection is replaced, and packets go to the new one. -/
example : ∃ tr s s₁ s₂ o, Exec step init tr s ∧ Made tr 0 7 ∧ busy tr ≠ some 7 ∧
    step s (.connect 7) = some (s₁, o) ∧
    Exec step s₁ [(.datagram 7 [1], .none), (.task, .none), (.task, .routed 7 [1] 1)] s₂ :=
  ⟨[(.connect 7, .connection 0 7)], _, _, _, _, exec_of_perform (as := [.connect 7]) rfl,
    .inl (.head _), by decide, rfl, exec_of_perform (as := [.datagram 7 [1], .task, .task]) rfl⟩

end Rsomeip
