import Verif.Lemmas.EpQuiet
import Verif.Lemmas.EpConn
import Verif.Lemmas.EpSend
import Mathlib.Data.Finset.Card
import Mathlib.Data.Finset.Prod

/-! # How many connections run -/

namespace Rsomeip.Rt.Ep

open Someip (InterfaceId)

/-- At most one value per key. -/
def Sole (m : Map Addr Nat) : Prop := ∀ a c d, (a, c) ∈ m.entries → (a, d) ∈ m.entries → c = d

theorem Sole.empty : Sole Map.empty := fun _ _ _ h => (nomatch h)

theorem Sole.insert {m : Map Addr Nat} (h : Sole m) (a : Addr) (c : Nat) : Sole (m.insert a c).2 := by
  intro b x y hx hy
  rw [Map.mem_insert] at hx hy
  rcases hx with hx | hx <;> rcases hy with hy | hy
  · cases hx; cases hy; rfl
  · cases hx; exact absurd rfl hy.2
  · cases hy; exact absurd rfl hx.2
  · exact h b x y hx.1 hy.1

theorem Sole.get {m : Map Addr Nat} (h : Sole m) {a : Addr} {c : Nat} (hc : (a, c) ∈ m.entries) :
    m.get a = some c := by
  cases hg : m.get a with
  | none => exact absurd hg (Map.get_of_mem hc)
  | some d => rw [h a c d hc (Map.mem_of_get hg)]

/-- The tables of connections of listeners and stubs. -/
structure Kept (s : State) : Prop where
  liss : ∀ l, Sole (s.liss l).conns
  stubs : ∀ k, Sole (s.stubs k).conns
  lisAddr : ∀ l a c, (a, c) ∈ (s.liss l).conns.entries → c < s.connCount ∧ (s.conns c).addr = a
  stubAddr : ∀ k a c, (a, c) ∈ (s.stubs k).conns.entries → c < s.connCount ∧ (s.conns c).addr = a

section
variable {dg : Bool} {s s' : State} {a : Action} {o : Obs}

theorem Kept.step_liss (h : Kept s) (m : Move dg s a o s') (l : Nat) : Sole (s'.liss l).conns := by
  have h := h.liss
  cases m <;> first | exact h l | grind [upd, newLis, deadLis, Sole.empty, Sole.insert]

theorem Kept.step_stubs (h : Kept s) (m : Move dg s a o s') (k : Nat) : Sole (s'.stubs k).conns := by
  have h := h.stubs
  have h5 := answer_cases s
  have h6 := refuse_cases s
  cases m <;> first | exact h k | grind [upd, stubAt_apply, Sole.empty, Sole.insert]

theorem Kept.step_lisAddr (h : Kept s) (hp : Peers s) (m : Move dg s a o s') (l : Nat) (b : Addr)
    (c : Nat) : (b, c) ∈ (s'.liss l).conns.entries → c < s'.connCount ∧ (s'.conns c).addr = b := by
  have h := h.lisAddr
  have hp := hp.lis
  cases m <;> first | exact h l b c |
    grind [upd, newLis, deadLis, Map.empty, Map.mem_insert, newConn, Conn.ended]

theorem Kept.step_stubAddr (h : Kept s) (hp : Peers s) (m : Move dg s a o s') (k : Nat) (b : Addr)
    (c : Nat) : (b, c) ∈ (s'.stubs k).conns.entries → c < s'.connCount ∧ (s'.conns c).addr = b := by
  have h := h.stubAddr
  have hp := hp.share
  have h5 := answer_cases s
  have h6 := refuse_cases s
  cases m <;> first | exact h k b c |
    grind [upd, stubAt_apply, Map.empty, Map.mem_insert, newConn, Conn.ended]

end

theorem kept {dg : Bool} {tr : Spec.Ep.Trace} {s : State} (e : Exec (step dg) init tr s) : Kept s := by
  induction e with
  | nil =>
    exact ⟨fun _ => .empty, fun _ => .empty, fun _ _ _ h => (nomatch h), fun _ _ _ h => (nomatch h)⟩
  | @snoc tr s s' a o e hs ih =>
    have m := move_of_step hs
    have hp := peers e
    exact ⟨ih.step_liss m, ih.step_stubs m, ih.step_lisAddr hp m, ih.step_stubAddr hp m⟩

/-- Everything that runs at rest is held by a proxy, by the table of a listener, or by the table of a
stub, and a listener by a stub. -/
theorem rest_count {dg : Bool} {tr : Spec.Ep.Trace} {s : State} (e : Exec (step dg) init tr s)
    (hq : Quiet dg s) (rs : Finset Addr) (hrs : ∀ c, c < s.connCount → (s.conns c).addr ∈ rs) :
    ((Finset.range s.connCount).filter fun c => (s.conns c).alive = true).card ≤
      ((Finset.range s.proxyCount).filter fun p => (s.proxies p).alive = true).card +
        2 * ((Finset.range s.stubCount).filter fun k => (s.stubs k).alive = true).card * rs.card := by
  classical
  obtain ⟨hg, hh⟩ := good_hist e
  have hk := kept e
  let P := (Finset.range s.proxyCount).filter fun p => (s.proxies p).alive = true
  let K := (Finset.range s.stubCount).filter fun k => (s.stubs k).alive = true
  let A := P.image fun p => (s.proxies p).conn
  let B := (K ×ˢ rs).image fun x => ((s.liss (s.stubs x.1).lis).conns.get x.2).getD 0
  let C := (K ×ˢ rs).image fun x => ((s.stubs x.1).conns.get x.2).getD 0
  have hsub : ((Finset.range s.connCount).filter fun c => (s.conns c).alive = true) ⊆ A ∪ (B ∪ C) := by
    intro c hc
    obtain ⟨hc, ha⟩ := Finset.mem_filter.mp hc
    have hr := hrs c (Finset.mem_range.mp hc)
    have h1 := (connStrong_iff hg.fresh c).mp (hq.connCmds ha).2
    rcases h1 with h1 | ⟨l, h1⟩ | ⟨k, h1⟩ | ⟨p, h1, h2⟩
    · exfalso
      rcases hq.pc hg.fresh hg.readers with h2 | ⟨h2, -⟩ <;> rw [h2] at h1 <;> cases h1
    · refine Finset.mem_union_right _ (Finset.mem_union_left _ ?_)
      have hw := hq.lisWaits hg.fresh l
      have h2 : ∃ b, (b, c) ∈ (s.liss l).conns.entries := by
        rcases (Lis.holdsConn_iff ..).mp h1 with h2 | h2
        · exact h2
        · rw [hw] at h2; cases h2
      obtain ⟨b, h2⟩ := h2
      have h3 := (hk.lisAddr l b c h2).2
      have h4 : (s.liss l).alive = true := by
        cases h : (s.liss l).alive with
        | true => rfl
        | false => rw [(hg.ended.liss l h).2.2.1] at h2; cases h2
      have h5 := (hq.lisCmds h4).2
      have h6 := (lisStrong_iff hg.fresh l).mp h5
      obtain ⟨k, h6, h7⟩ : ∃ k, (s.stubs k).alive = true ∧ (s.stubs k).lis = l := by
        rcases h6 with h6 | h6
        · exfalso
          rcases hq.pc hg.fresh hg.readers with h2 | ⟨h2, -⟩ <;> rw [h2] at h6 <;> cases h6
        · exact h6
      refine Finset.mem_image.mpr ⟨(k, b), Finset.mem_product.mpr ⟨Finset.mem_filter.mpr
        ⟨Finset.mem_range.mpr (stub_lt hg.fresh h6), h6⟩, h3 ▸ hr⟩, ?_⟩
      dsimp only
      rw [h7, (hk.liss l).get h2]
      rfl
    · refine Finset.mem_union_right _ (Finset.mem_union_right _ ?_)
      have hw := hq.stubIdle e k
      have h2 : ∃ b, (b, c) ∈ (s.stubs k).conns.entries := by
        rcases (Stub.holdsConn_iff ..).mp h1 with h2 | ⟨_, _, h2⟩ | ⟨_, _, h2⟩
        · exact h2
        all_goals rw [hw] at h2; cases h2
      obtain ⟨b, h2⟩ := h2
      have h3 := (hk.stubAddr k b c h2).2
      have h4 : (s.stubs k).alive = true := by
        cases h : (s.stubs k).alive with
        | true => rfl
        | false => rw [(hg.ended.stubs k h).1] at h2; cases h2
      refine Finset.mem_image.mpr ⟨(k, b), Finset.mem_product.mpr ⟨Finset.mem_filter.mpr
        ⟨Finset.mem_range.mpr (stub_lt hg.fresh h4), h4⟩, h3 ▸ hr⟩, ?_⟩
      dsimp only
      rw [(hk.stubs k).get h2]
      rfl
    · refine Finset.mem_union_left _ (Finset.mem_image.mpr ⟨p, Finset.mem_filter.mpr
        ⟨Finset.mem_range.mpr (proxy_lt hg.fresh h1), h1⟩, h2⟩)
  have h1 := Finset.card_le_card hsub
  have h2 := Finset.card_union_le A (B ∪ C)
  have h3 := Finset.card_union_le B C
  have h4 : A.card ≤ P.card := Finset.card_image_le
  have h5 : B.card ≤ (K ×ˢ rs).card := Finset.card_image_le
  have h6 : C.card ≤ (K ×ˢ rs).card := Finset.card_image_le
  rw [Finset.card_product] at h5 h6
  have h7 : 2 * K.card * rs.card = K.card * rs.card + K.card * rs.card := by
    rw [Nat.mul_assoc, Nat.two_mul]
  show _ ≤ P.card + 2 * K.card * rs.card
  omega

end Rsomeip.Rt.Ep
