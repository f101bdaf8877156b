import Verif.Props.Rt.Count
import Verif.Props.Rt.Closed

/-! # C96: how many connections run on a TCP socket -/

namespace Rsomeip

open Rt Rt.TcpNode Spec Spec.TcpNode
open Spec.Ep (Shown)

/-- The program cannot get on, but for reads that return. -/
def Spec.TcpNode.OnlyReads (s : State) : Prop :=
  ∀ a, GetsOn a → (∀ c n, a ≠ .read c (.read n)) → TcpNode.step s a = none

section
variable {tr : Trace} {s : State}

theorem reads_quiet (e : Exec TcpNode.step TcpNode.init tr s) (hr : OnlyReads s) (hm : Room s) :
    Ep.Quiet false s.ep := by
  have key : ∀ y, GetsOn (.app y) → (∀ c r, y ≠ .packet c r) → (∀ c ok, y ≠ .sent c ok) →
      Ep.step false s.ep y = none := by
    intro y hy h1 h2
    cases hs : Ep.step false s.ep y with
    | none => rfl
    | some r =>
      exfalso
      have := hr (.app y) hy nofun
      cases y <;> first | exact h1 _ _ rfl | exact h2 _ _ rfl | simp [TcpNode.step, does, hs] at this
  refine ⟨?_, ?_, ?_, ?_, ?_, ?_, ?_, hm.1, hm.2⟩
  · exact key _ (.inl ⟨_, rfl, by simp⟩) (by simp) (by simp)
  · exact fun l => key _ (.inl ⟨_, rfl, by simp⟩) (by simp) (by simp)
  · exact fun l => key _ (.inl ⟨_, rfl, by simp⟩) (by simp) (by simp)
  · exact fun l => key _ (.inl ⟨_, rfl, by simp⟩) (by simp) (by simp)
  · exact fun l => key _ (.inl ⟨_, rfl, by simp⟩) (by simp) (by simp)
  · intro c
    cases ho : (s.ep.conns c).out with
    | none => simp [Ep.step, Ep.sent, ho]
    | some b =>
      obtain ⟨s', o, h⟩ := C87_goes_on e ho (.wrote 1)
      rw [hr _ (.inr (.inr ⟨c, 1, Nat.one_pos, rfl⟩)) nofun] at h
      cases h
  · exact fun k => key _ (.inl ⟨_, rfl, by simp⟩) (by simp) (by simp)

/-- **C96**, what holds on a TCP socket: when an endpoint has nothing left to do, but for reads, every running
connection is used by a proxy, or by the listener or by the table of a stub, of which each has at most one for
every remote there ever was. This includes connections that the remote has closed, from which nothing is read
for ever (C130). -/
theorem C96_tcp_partial (e : Exec TcpNode.step TcpNode.init tr s) (hr : OnlyReads s) (hm : Room s)
    (remotes : Finset Addr) (h : ∀ c a, Shown (app tr) (.opened c a) → a ∈ remotes) :
    ((Finset.range s.ep.connCount).filter fun c => (s.ep.conns c).alive = true).card ≤
      ((Finset.range s.ep.proxyCount).filter fun p => (s.ep.proxies p).alive = true).card +
        2 * ((Finset.range s.ep.stubCount).filter fun k => (s.ep.stubs k).alive = true).card * remotes.card :=
  Ep.rest_count (part e) (reads_quiet e hr hm) remotes fun c hc => h c _ ((Ep.good_hist (part e)).2.conns c hc)

end

/-- One stub, two clients, two running connections, and nothing left to do. -/
example : ∃ tr s, Exec TcpNode.step TcpNode.init tr s ∧ OnlyReads s ∧ Room s ∧
    (∀ c a, Shown (app tr) (.opened c a) → a ∈ ({8, 9} : Finset Addr)) ∧
    ((Finset.range s.ep.connCount).filter fun c => (s.ep.conns c).alive = true).card = 2 ∧
    ((Finset.range s.ep.proxyCount).filter fun p => (s.ep.proxies p).alive = true).card = 0 ∧
    ((Finset.range s.ep.stubCount).filter fun k => (s.ep.stubs k).alive = true).card = 1 := by
  obtain ⟨tr, s, e, h⟩ := exec_by (step := TcpNode.step) (s := TcpNode.init)
    (leaves.dropLast ++ [.app (.accept 0 9), .app (.lisShare 0)])
    (fun tr s => calm s && (app tr).all (fun x => match x.2 with
        | .opened _ a => a == 8 || a == 9
        | _ => true) && decide (
      ((Finset.range s.ep.connCount).filter fun c => (s.ep.conns c).alive = true).card = 2 ∧
      ((Finset.range s.ep.proxyCount).filter fun p => (s.ep.proxies p).alive = true).card = 0 ∧
      ((Finset.range s.ep.stubCount).filter fun k => (s.ep.stubs k).alive = true).card = 1)) (by decide +kernel)
  simp only [Bool.and_eq_true, decide_eq_true_eq, List.all_eq_true] at h
  obtain ⟨hr, hm⟩ := tcp_calm e h.1.1
  refine ⟨tr, s, e, fun a ha _ => hr a ha, hm, fun c a ⟨x, hx⟩ => ?_, h.2⟩
  have := h.1.2 _ hx
  simpa using this

end Rsomeip
