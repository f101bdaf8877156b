import Verif.Spec.FairTcpNet
import Verif.Lemmas.TcpRun
import Verif.Lemmas.TcpNet

/-! # Runs of several programs connected by TCP -/

namespace Rsomeip.Rt.TcpNet

open Spec Spec.TcpNet

variable {own : Addr → Bool}

/-- What the program at `n` does in a run. -/
def nodeRun (r : Run own) (n : Addr) : Spec.TcpNode.Run where
  state t := (r.state t).nodes n
  act t := (r.act t).bind fun x => if x.1.1 = n then some (x.1.2.1, x.2) else none
  start := by rw [r.start]; rfl
  next t := by
    rcases r.move t with ⟨h1, h2⟩ | ⟨a, o, h1, h2⟩
    · rw [h1, h2]; rfl
    · rw [h1]
      obtain ⟨-, -, z, hz, h3⟩ := step_inv h2
      rw [h3]
      by_cases h : a.1 = n
      · subst h
        simp only [Option.bind_some, if_true, upd_same]
        exact hz
      · simp only [Option.bind_some, if_neg h]
        exact upd_ne _ _ (Ne.symm h)

theorem nodeRun_hist (r : Run own) (n : Addr) (t : Nat) : (nodeRun r n).hist t = at_ n (r.hist t) := by
  rw [at_, Endless.hist, Endless.hist, List.filterMap_filterMap]
  rfl

variable {r : Run own} {n : Addr}

theorem node_can {t : Nat} {P : TcpNode.Action → Prop} (hn : own n = true)
    (hp : ∀ x, P x → (∀ l a, x ≠ .app (.accept l a)) ∧ ∀ c b, x ≠ .arrive c b)
    (h : (nodeRun r n).Can t P) : r.Can t (At n P) := by
  obtain ⟨a, o, s', h1, h2⟩ := h
  have h2 : TcpNode.step ((r.state t).nodes n) a = some (s', o) := h2
  have h3 : possible own (r.state t) n 0 a = true := by
    have h4 := hp a h1
    unfold possible
    split
    · exact absurd rfl (h4.1 _ _)
    · exact absurd rfl (h4.2 _ _)
    · rfl
  exact ⟨(n, a, 0), o, { carry own (r.state t) n 0 a o with nodes := upd (r.state t).nodes n s' },
    ⟨rfl, h1⟩, by simp [step, hn, h3, h2]⟩

theorem node_does {t : Nat} {P : TcpNode.Action → Prop} (h : r.Does t (At n P)) :
    (nodeRun r n).Does t P := by
  obtain ⟨a, o, h1, h2, h3⟩ := h
  exact ⟨a.2.1, o, by show (r.act t).bind _ = _; rw [h1]; simp [h2], h3⟩

theorem node_fair {P : TcpNode.Action → Prop} (hn : own n = true)
    (hp : ∀ x, P x → (∀ l a, x ≠ .app (.accept l a)) ∧ ∀ c b, x ≠ .arrive c b)
    (h : r.FairTo (At n P)) : (nodeRun r n).FairTo P := by
  intro hio N
  obtain ⟨t, h1, h2⟩ := h (fun M => by
    obtain ⟨t, h1, h2⟩ := hio M
    exact ⟨t, h1, node_can hn hp h2⟩) N
  exact ⟨t, h1, node_does h2⟩

theorem fair_node (hf : Fair r) (hn : own n = true) : TcpNode.Fair (nodeRun r n) := by
  constructor
  · exact node_fair hn (by rintro x ⟨ok, rfl⟩; simp) (hf.ep n hn)
  · exact fun l => node_fair hn (by rintro x rfl; simp) (hf.lis n hn l)
  · exact fun l => node_fair hn (by rintro x rfl; simp) (hf.route n hn l)
  · exact fun l => node_fair hn (by rintro x rfl; simp) (hf.cmd n hn l)
  · exact fun l => node_fair hn (by rintro x ⟨k, hk, rfl⟩; simp) (hf.write n hn l)
  · exact fun l => node_fair hn (by rintro x ⟨k, rfl⟩; simp) (hf.read n hn l)
  · exact fun l => node_fair hn (by rintro x rfl; simp) (hf.call n hn l)

theorem read_node (hr : Read r n) : TcpNode.Read (nodeRun r n) := ⟨hr.stubs, hr.proxies⟩

theorem settles_node (hs : Settles r n) : TcpNode.Settles (nodeRun r n) := by
  obtain ⟨N, hN⟩ := hs
  refine ⟨N, fun t ht => ?_⟩
  rintro ⟨a, o, h1, h2⟩
  obtain ⟨x, h3, h4⟩ := Option.bind_eq_some_iff.mp h1
  split at h4
  · rename_i h5
    cases h4
    exact hN t ht ⟨x.1, x.2, h3, h5, h2⟩
  · cases h4

end Rsomeip.Rt.TcpNet
