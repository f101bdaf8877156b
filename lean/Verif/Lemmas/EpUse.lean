import Verif.Lemmas.EpConn

/-! # Handles of connections are not made from nothing -/

namespace Rsomeip.Rt.Ep

open Someip (InterfaceId)
open Spec Spec.Ep

section
variable {dg : Bool} {s s' : State} {a : Action} {o : Obs}

theorem Move.heldConn_pc (hf : Fresh s) (m : Move dg s a o s') {c : Nat}
    (h : s'.pc.holdsConn c = true) : HeldConn s c ∨ c = s.connCount ∧ (s'.conns c).alive = true := by
  have hs := connStrong_iff hf
  cases m <;> first | exact .inl (.inl h) | grind [EpPc.holdsConn, HeldConn, upd, newConn]

theorem Move.heldConn_liss (m : Move dg s a o s') {c l : Nat}
    (h : (s'.liss l).holdsConn c = true) : HeldConn s c ∨ c = s.connCount ∧ (s'.conns c).alive = true := by
  cases m <;> first | exact .inl (.inr (.inl ⟨l, h⟩)) |
    grind [HeldConn, upd, Lis.holdsConn_iff, newLis, newConn, deadLis, Map.empty, Map.mem_insert]

theorem Move.heldConn_stubs (hf : Fresh s) (m : Move dg s a o s') {c k : Nat}
    (h : (s'.stubs k).holdsConn c = true) : HeldConn s c ∨ c = s.connCount ∧ (s'.conns c).alive = true := by
  have hs := connStrong_iff hf
  have h5 := answer_cases s
  have h6 := refuse_cases s
  cases m <;> first | exact .inl (.inr (.inr (.inl ⟨k, h⟩))) |
    grind [HeldConn, upd, Stub.holdsConn_iff, stubAt_apply, newConn, Map.empty, Map.mem_insert]

theorem Move.heldConn_proxies (m : Move dg s a o s') {c p : Nat}
    (h1 : (s'.proxies p).alive = true) (h : (s'.proxies p).conn = c) :
    HeldConn s c ∨ c = s.connCount ∧ (s'.conns c).alive = true := by
  have hp := holdsConn_take
  cases m <;> first | exact .inl (.inr (.inr (.inr ⟨p, h1, h⟩))) |
    grind [HeldConn, upd]

/-- A connection without handles never gets one again. -/
theorem Move.heldConn (hf : Fresh s) (m : Move dg s a o s') {c : Nat} (h : HeldConn s' c) :
    HeldConn s c ∨ c = s.connCount ∧ (s'.conns c).alive = true := by
  rcases h with h | ⟨l, h⟩ | ⟨k, h⟩ | ⟨p, h1, h⟩
  · exact m.heldConn_pc hf h
  · exact m.heldConn_liss h
  · exact m.heldConn_stubs hf h
  · exact m.heldConn_proxies h1 h

end

end Rsomeip.Rt.Ep
