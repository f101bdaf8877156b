import Verif.Lemmas.EpConn

/-! # Steps from moves -/

namespace Rsomeip.Rt.Ep

open Someip (InterfaceId)

theorem step_of_move {dg : Bool} {s s' : State} {a : Action} {o : Obs} (m : Move dg s a o s') :
    step dg s a = some (s', o) := by
  cases m
  case serveNew id hpc hl =>
    simp only [step, ep, hpc]
    cases h : s.listener with
    | none => simp
    | some l => simp [hl l h]
  case serveNoListen id hpc hl =>
    simp only [step, ep, hpc]
    cases h : s.listener with
    | none => simp
    | some l => simp [hl l h]
  case proxyMissing ok id a hpc hl hc =>
    simp only [step, ep, hpc, hl]
    cases h : s.peers.get a with
    | none => simp
    | some l => simp [hc l h]
  case checkAsk k a m hw hl hc he =>
    simp only [step, stubStep, hw, hl]
    cases h : s.peers.get a with
    | none => simp [he]
    | some l => simp [hc l h, he]
  case checkFail k a m hw hl hc he =>
    simp only [step, stubStep, hw, hl]
    cases h : s.peers.get a with
    | none => simp [he]
    | some l => simp [hc l h, he]
  case packetSkip c r ha hw hr =>
    rcases hr with ⟨e, hr⟩ | hr <;> simp [step, packet, ha, hw, hr]
  case packetEnd c r ha hw hr =>
    rcases hr with hr | hr <;> simp [step, packet, ha, hw, hr]
  case connectFail hk => simp [step, ep, *, refusal_asked hk]
  case connectRefused hk => simp [step, ep, *, refusal_asked hk]
  case connectStale ok k a t hpc hd hk =>
    have h := refusal_stale hk
    have h' := (h .io).1
    cases dg <;> cases ok <;> simp_all [step, ep]
  all_goals simp [step, ep, epCmd, create, lisShare, lisCmd, packet, route, connCmd, sent, stubStep,
    stubRecv, proxySend, proxyRecv, *]

theorem step_iff {dg : Bool} {s s' : State} {a : Action} {o : Obs} :
    step dg s a = some (s', o) ↔ Move dg s a o s' := ⟨move_of_step, step_of_move⟩

end Rsomeip.Rt.Ep
