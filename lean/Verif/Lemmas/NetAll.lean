import Verif.Lemmas.Net
import Verif.Lemmas.EpShut
import Verif.Spec.Once

/-! # Everything that is sent, on a UDP socket -/

namespace Rsomeip

namespace Rt.Node

open Spec.Node
open Spec.Ep (Shown onWire)

variable {tr : Trace} {s : State}

theorem Call.sends {s s' : State} {x : Ep.Action} {e : Ep.State} {o : Ep.Obs}
    {us : List (Udp.Action × Udp.Obs)} {out' : List (Addr × Bytes)} (k : Call s x e o s' us out')
    (m : Ep.Move true s.ep x o e) :
    (∃ c ok b, x = .sent c ok ∧ o = .wire b ok ∧ (ok = true → b.length ≤ 1400) ∧
      out' = if b.length ≤ 1400 then [((s.ep.conns c).addr, b)] else []) ∨
    ((∀ c ok, x ≠ .sent c ok) ∧ out' = []) := by
  cases k with
  | send c ok b hx hb ha hl =>
    refine .inl ⟨c, ok, b, hx, ?_, hl, rfl⟩
    subst hx
    cases m <;> grind
  | sendEnd c ok b v w hx hb ha hl hu =>
    refine .inl ⟨c, ok, b, hx, ?_, hl, rfl⟩
    subst hx
    cases m <;> grind
  | still h1 h2 h3 h4 h5 h6 h7 => exact .inr ⟨h7, rfl⟩
  | _ => exact .inr ⟨by subst x; exact fun c ok h => (nomatch h), rfl⟩

/-- If `c` is the only connection to `b`, the datagrams sent to `b` are those it sends. -/
theorem out_to (e : Exec step init tr s) {c : Nat} {b : Addr}
    (h1 : ∀ d, Shown (app tr) (.opened d b) → d = c)
    (h2 : ∀ a, Shown (app tr) (.opened c a) → a = b) :
    outTo b tr = (onWire c (app tr)).filter fun p => decide (p.length ≤ 1400) := by
  induction e with
  | nil => rfl
  | @snoc tr1 s1 s2 act ob e1 hs ih =>
    obtain ⟨e2, -⟩ := parts e1
    obtain ⟨hg, hh⟩ := Ep.good_hist e2
    rw [app_snoc] at h1 h2 ⊢
    replace ih := ih (fun d h => h1 d (shown_append.mpr (.inl h)))
      (fun a h => h2 a (shown_append.mpr (.inl h)))
    rw [outTo, out_snoc, List.filterMap_append, ← outTo, ih, onWire_append, List.filter_append]
    congr 1
    cases move_of_step hs with
    | app x e o _ us out' he hc =>
      have m := Ep.move_of_step he
      rw [app_app]
      rcases hc.sends m with ⟨d, ok, p, rfl, rfl, -, rfl⟩ | ⟨hx, rfl⟩
      · have hd : d < s1.ep.connCount := conn_lt hg m rfl
        have hd' := hh.conns d hd
        by_cases hdc : d = c
        · subst hdc
          have := h2 _ (shown_append.mpr (.inl hd'))
          by_cases hp : p.length ≤ 1400 <;> simp [hp, this, onWire]
        · have : (s1.ep.conns d).addr ≠ b := by
            rintro rfl
            exact hdc (h1 d (shown_append.mpr (.inl hd')))
          by_cases hp : p.length ≤ 1400 <;> simp [hp, this, onWire, hdc]
      · cases x <;> first | rfl | exact absurd rfl (hx _ _)
    | net _ u v w ha hn hd hu =>
      have h1 : app [(act, (⟨none, [(u, w)], []⟩ : Obs))] = [] := by
        cases act <;> rfl
      rw [h1]
      rfl

/-- Nothing too long was sent on a connection that is running. -/
theorem wire_short (e : Exec step init tr s) (c : Nat) (ha : (s.ep.conns c).alive = true) :
    ∀ p ∈ onWire c (app tr), p.length ≤ 1400 := by
  induction e with
  | nil => exact fun p hp => (nomatch hp)
  | @snoc tr1 s1 s2 act ob e1 hs ih =>
    obtain ⟨e2, -⟩ := parts e1
    obtain ⟨hg, hh⟩ := Ep.good_hist e2
    rw [app_snoc, onWire_append]
    cases move_of_step hs with
    | app x e o _ us out' he hc =>
      have m := Ep.move_of_step he
      rw [hc.ep] at ha
      have h0 : ∀ p ∈ onWire c (app tr1), p.length ≤ 1400 := by
        cases h1 : (s1.ep.conns c).alive with
        | true => exact ih h1
        | false =>
          by_cases h2 : c < s1.ep.connCount
          · rw [m.conn_dead h2 h1] at ha
            cases ha
          · rw [((Ep.wire e2).new c (Nat.le_of_not_lt h2)).1]
            exact fun p hp => (nomatch hp)
      intro p hpp
      rcases List.mem_append.mp hpp with hp' | hp
      · exact h0 p hp'
      · rw [app_app] at hp
        rcases hc.sends m with ⟨d, ok, b, rfl, rfl, hl, -⟩ | ⟨hx, -⟩
        · by_cases hdc : d = c
          · subst hdc
            have : p = b := by simpa [onWire] using hp
            subst this
            apply hl
            cases m
            · rfl
            · simp [upd, Ep.Conn.ended] at ha
          · simp [onWire, hdc] at hp
        · have : onWire c [(x, o)] = [] := by
            cases x <;> first | rfl | exact absurd rfl (hx _ _)
          rw [this] at hp
          cases hp
    | net _ u v w ha' hn hd hu =>
      have h1 : app [(act, (⟨none, [(u, w)], []⟩ : Obs))] = [] := by
        cases act <;> rfl
      rw [h1]
      intro p hp
      rcases List.mem_append.mp hp with hp | hp
      · exact ih ha p hp
      · cases hp

end Rt.Node

end Rsomeip
