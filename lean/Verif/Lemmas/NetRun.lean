import Verif.Spec.FairNet
import Verif.Lemmas.NodeRun
import Verif.Lemmas.Net

/-! # Runs of several programs on a UDP network -/

namespace Rsomeip.Rt.Net

open Spec Spec.Net

variable {own : Addr → Bool}

/-- What the program at `n` does in a run. -/
def nodeRun (r : Run own) (n : Addr) : Spec.Node.Run where
  state t := (r.state t).nodes n
  act t := (r.act t).bind fun x => if x.1.1 = n then some (x.1.2, x.2) else none
  start := by rw [r.start]; rfl
  next t := by
    rcases r.move t with ⟨h1, h2⟩ | ⟨a, o, h1, h2⟩
    · rw [h1, h2]; rfl
    · rw [h1]
      obtain ⟨-, -, z, hz, h3⟩ := step_inv h2
      rw [h3]
      by_cases h : a.1 = n
      · subst h
        simp only [Option.bind_some, if_true, upd_same]
        exact hz
      · simp only [Option.bind_some, if_neg h]
        exact upd_ne _ _ (Ne.symm h)

theorem nodeRun_hist (r : Run own) (n : Addr) (t : Nat) : (nodeRun r n).hist t = at_ n (r.hist t) := by
  rw [at_, Endless.hist, Endless.hist, List.filterMap_filterMap]
  rfl

theorem nodeRun_act {r : Run own} {n : Addr} {t : Nat} {x : Node.Action} {o : Node.Obs}
    (h : (nodeRun r n).act t = some (x, o)) : r.act t = some ((n, x), o) := by
  obtain ⟨y, h1, h2⟩ := Option.bind_eq_some_iff.mp h
  split at h2
  · rename_i h3
    cases h2
    rw [h1, ← h3]
  · cases h2

variable {r : Run own} {n : Addr}

theorem node_can {t : Nat} {P : Node.Action → Prop} (hn : own n = true) (hp : ∀ a p, ¬ P (.datagram a p))
    (h : (nodeRun r n).Can t P) : r.Can t (At n P) := by
  obtain ⟨a, o, s', h1, h2⟩ := h
  have h2 : Node.step ((r.state t).nodes n) a = some (s', o) := h2
  have h3 : deliverable own (r.state t) n a = true := by
    unfold deliverable
    split
    · exact absurd h1 (hp _ _)
    · rfl
  exact ⟨(n, a), o, _, ⟨rfl, h1⟩, by simp [step, hn, h3, h2]; rfl⟩

theorem node_does {t : Nat} {P : Node.Action → Prop} (h : r.Does t (At n P)) : (nodeRun r n).Does t P := by
  obtain ⟨a, o, h1, h2, h3⟩ := h
  exact ⟨a.2, o, by show (r.act t).bind _ = _; rw [h1]; simp [h2], h3⟩

theorem node_fair {P : Node.Action → Prop} (hn : own n = true) (hp : ∀ a p, ¬ P (.datagram a p))
    (h : r.FairTo (At n P)) : (nodeRun r n).FairTo P := by
  intro hio N
  obtain ⟨t, h1, h2⟩ := h (fun M => by
    obtain ⟨t, h1, h2⟩ := hio M
    exact ⟨t, h1, node_can hn hp h2⟩) N
  exact ⟨t, h1, node_does h2⟩

theorem fair_node (hf : Fair r n) (hn : own n = true) : Spec.Node.Fair (nodeRun r n) := by
  constructor
  · exact node_fair hn (by rintro a p ⟨ok, h⟩; cases h) hf.ep
  · exact fun l => node_fair hn (by rintro a p h; cases h) (hf.lis l)
  · exact fun l => node_fair hn (by rintro a p ⟨ok, h⟩; cases h) (hf.accept l)
  · exact fun l => node_fair hn (by rintro a p h; cases h) (hf.share l)
  · exact fun l => node_fair hn (by rintro a p h; cases h) (hf.route l)
  · exact fun l => node_fair hn (by rintro a p ⟨ok, h⟩; cases h) (hf.recv l)
  · exact fun l => node_fair hn (by rintro a p (h | ⟨ok, h⟩) <;> cases h) (hf.send l)
  · exact fun l => node_fair hn (by rintro a p h; cases h) (hf.call l)
  · exact node_fair hn (by rintro a p h; cases h) hf.task

theorem read_node (hr : Read r n) : Spec.Node.Read (nodeRun r n) := ⟨hr.stubs, hr.proxies⟩

theorem settles_node (hs : Settles r n) : Spec.Node.Settles (nodeRun r n) := by
  obtain ⟨N, hN⟩ := hs
  refine ⟨N, fun t ht => ?_⟩
  rintro ⟨a, o, h1, h2⟩
  exact hN t ht ⟨(n, a), o, nodeRun_act h1, rfl, h2⟩

end Rsomeip.Rt.Net
