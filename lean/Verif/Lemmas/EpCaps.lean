import Verif.Lemmas.Endpoint
import Verif.Spec.Endpoint

/-! # No queue is longer than its channel -/

namespace Rsomeip.Rt.Ep

open Spec.Ep

/-- No queue is longer than its channel is. -/
structure Caps (s : State) : Prop where
  ep : s.cmds.length ≤ 8
  lis : ∀ l, (s.liss l).cmds.length ≤ 8
  conn : ∀ c, (s.conns c).cmds.length ≤ 1
  iface : ∀ i, (s.ifaces i).queue.length ≤ 16

theorem caps {dg : Bool} {tr : Trace} {s : State} (e : Exec (step dg) init tr s) : Caps s := by
  induction e with
  | nil => constructor <;> simp [Ep.init]
  | snoc _ hs ih =>
    have m := move_of_step hs
    obtain ⟨h1, h2, h3, h4⟩ := ih
    constructor
    · cases m <;> first | exact h1 | grind [epCap]
    · intro l
      have := h2 l
      cases m <;> first | exact this | grind [upd, lisCap, newLis, deadLis]
    · intro c
      have := h3 c
      cases m <;> first | exact this | grind [upd, connCap, newConn, Conn.ended]
    · intro i
      have := h4 i
      cases m <;> first | exact this | grind [upd, ifCap, Iface.drop]

end Rsomeip.Rt.Ep
