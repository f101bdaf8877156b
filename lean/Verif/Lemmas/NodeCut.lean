import Verif.Lemmas.NodeOpen
import Verif.Props.Rt.UdpSole
import Verif.Lemmas.NodeOnce

/-! # Connections that were replaced -/

namespace Rsomeip.Rt.Node

open Spec.Node

/-- A continuation of a history of the node is one of the socket. -/
theorem parts_udp {tr : Trace} {s s' : State} (e : Exec step s tr s') :
    Exec Udp.step s.udp (socket tr) s'.udp := by
  induction e with
  | nil => exact .nil
  | @snoc tr1 s1 s2 act ob _ hs ih =>
    rw [socket_snoc]
    cases move_of_step hs with
    | app x e o s' us out he hc => exact ih.append hc.udp
    | net _ u v w ha hn hd hu => exact ih.append (.cons hu .nil)

/-- Connections keep their channel. -/
theorem chan_stays {tr : Trace} {s s' : State} (e : Exec step s tr s') {c : Nat}
    (hc : c < s.ep.connCount) : c < s'.ep.connCount ∧ s'.chan c = s.chan c := by
  induction e with
  | nil => exact ⟨hc, rfl⟩
  | @snoc tr1 s1 s2 act ob _ hs ih =>
    obtain ⟨h1, h2⟩ := ih
    rw [← h2]
    cases move_of_step hs with
    | app x e o s' us out he hcall =>
      have m := Ep.move_of_step he
      have hg := m.grows
      refine ⟨by rw [hcall.ep]; rcases hg with ⟨_, _, h2, _⟩ | ⟨_, _, h2, _⟩ <;> omega, ?_⟩
      cases hcall
      case connect d a v b b' hx ho hu =>
        subst ho
        have : d = s1.ep.connCount := by
          subst hx
          cases m <;> rfl
        exact upd_ne _ _ (by omega)
      case accept => exact upd_ne _ _ (by omega)
      all_goals rfl
    | net _ u v w ha hn hd hu => exact ⟨h1, rfl⟩

/-- Every connection of the endpoint was made by the socket. -/
theorem opened_made {tr : Trace} {s : State} (e : Exec step init tr s) {c : Nat} {r : Addr}
    (h : Spec.Ep.Shown (app tr) (.opened c r)) :
    c < s.ep.connCount ∧ Spec.Udp.Made (socket tr) (s.chan c) r := by
  obtain ⟨hc, hm⟩ := (told e).opened c r h
  have e2 := (parts e).2
  obtain ⟨h1, h2, _⟩ := (Udp.exec_inv e2).2.1.conns _ hm
  have h3 := Udp.chan_made e2 h1
  rw [h2] at h3
  exact ⟨hc, h3⟩

theorem into_append (c : Nat) (t u : Spec.Udp.Trace) :
    Spec.Udp.into c (t ++ u) = Spec.Udp.into c t ++ Spec.Udp.into c u := by
  simp only [Spec.Udp.into, Spec.Udp.fates, List.filterMap_append]

/-- What a connection receives arrived before its remote was connected to again. -/
theorem cut_off {tr tr' : Trace} {s s₁ s₂ : State} {c d : Nat} {r : Addr} {o : Obs}
    (e : Exec step init tr s) (hc : Spec.Ep.Shown (app tr) (.opened c r))
    (hpc : Spec.Udp.busy (socket tr) ≠ some r)
    (h : step s (.app (.ep true)) = some (s₁, o)) (ho : o.ep = some (.opened d r))
    (e' : Exec step s₁ tr' s₂) :
    (reads c (app (tr ++ (.app (.ep true), o) :: tr'))).Sublist (arrivals r tr) := by
  have eT : Exec step init (tr ++ (.app (.ep true), o) :: tr') s₂ := e.append (.cons h e')
  obtain ⟨h1, h2⟩ := opened_made e hc
  obtain ⟨h3, h4⟩ := chan_stays (Exec.cons h e') h1
  rw [(told eT).reads c h3, h4, ← arrivals_eq e]
  refine (Udp.shows_sublist _ _ (C57_gaps (parts eT).2 (s.chan c))).trans ?_
  have h5 : ∃ v w, Udp.step s.udp (.connect r) = some (v, w) ∧ s₁.udp = v ∧
      socket [(.app (.ep true), o)] = [(.connect r, w)] ∧ Spec.Udp.into (s.chan c) [(.connect r, w)] = [] := by
    generalize hy : Action.app (.ep true) = y at h
    cases move_of_step h with
    | net => cases ho
    | app y ep o s' us out he hcall =>
      cases hy
      cases ho
      cases hcall
      case connect c' a v d' b hx ho hu =>
        cases ho
        exact ⟨_, _, hu, rfl, rfl, rfl⟩
      case still h1 _ _ _ _ _ _ => exact absurd rfl ((h1 true rfl).2.2 d r)
      case listen h1 _ _ _ => exact absurd rfl (h1 d r)
      all_goals contradiction
  obtain ⟨v, w, k1, k2, k3, k4⟩ := h5
  have e3 := (parts e).2
  have h6 := (C60_cut_off e3 h2 hpc k1 (k2 ▸ parts_udp e')).1
  have : socket (tr ++ (.app (.ep true), o) :: tr') = socket tr ++ (socket [(.app (.ep true), o)] ++ socket tr') := by
    simp [socket]
  rw [this, into_append, into_append, k3, k4, h6]
  simp only [List.append_nil]
  exact C57_routed e3 _ _ ((told e).opened c r hc).2

end Rsomeip.Rt.Node
