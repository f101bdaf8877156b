import Verif.Spec.FairTcp
import Verif.Lemmas.Endless
import Verif.Lemmas.EpRun
import Verif.Lemmas.TcpNode
import Verif.Props.Rt.TcpNode

/-! # Runs of an endpoint on a TCP socket -/

namespace Rsomeip.Rt.TcpNode

open Spec Spec.TcpNode

/-- The endpoint's part of a run. -/
def epRun (r : Run) : Ep.Run false where
  state n := (r.state n).ep
  act n := (r.act n).bind fun x => x.2.ep
  start := by rw [r.start]; rfl
  next n := by
    rcases r.move n with ⟨h1, h2⟩ | ⟨a, o, h1, h2⟩
    · rw [h1, h2]; rfl
    · rw [h1]
      generalize r.state (n + 1) = t at h2
      cases move_of_step h2 <;> first | rfl | assumption

theorem epRun_hist (r : Run) (n : Nat) : (epRun r).hist n = app (r.hist n) := by
  rw [app, Ep.Run.hist, Endless.hist, List.filterMap_filterMap]
  rfl

variable {s : State}

theorem can_app {x : Ep.Action} {e : Ep.State} {o : Ep.Obs} (h : Ep.step false s.ep x = some (e, o))
    (h1 : ∀ c p, x ≠ .packet c p) (h2 : ∀ c ok, x ≠ .sent c ok) :
    ∃ s' w, step s (.app x) = some (s', w) := by
  cases x <;> first | exact absurd rfl (h1 _ _) | exact absurd rfl (h2 _ _) | simp [step, does, h]

variable {r : Run}

theorem does_app {n : Nat} {P : Ep.Action → Prop} {Q : Action → Prop}
    (hq : ∀ y, Q y → ∃ x, y = .app x ∧ P x) (h : r.Does n Q) : (epRun r).Does n P := by
  obtain ⟨a, o, h1, h2⟩ := h
  obtain ⟨x, rfl, hx⟩ := hq a h2
  rcases r.move n with ⟨h3, _⟩ | ⟨a', o', h3, h4⟩
  · rw [h1] at h3; cases h3
  · rw [h1] at h3
    cases h3
    generalize r.state (n + 1) = t at h4
    cases move_of_step h4 with
    | app x e o => exact ⟨x, o, by show (r.act n).bind _ = _; rw [h1]; rfl, hx⟩

theorem fair_app {P : Ep.Action → Prop} {Q : Action → Prop} (hf : r.FairTo Q)
    (hq : ∀ y, Q y → ∃ x, y = .app x ∧ P x) (hp : ∀ x, P x → Q (.app x))
    (h1 : ∀ x c p, P x → x ≠ .packet c p) (h2 : ∀ x c ok, P x → x ≠ .sent c ok) :
    (epRun r).FairTo P := by
  intro h N
  obtain ⟨n, h3, h4⟩ := hf (fun M => by
    obtain ⟨n, h3, a, o, s', ha, h4⟩ := h M
    obtain ⟨s1, w, h5⟩ := can_app (s := r.state n) h4 (fun c p => h1 a c p ha) (fun c p => h2 a c p ha)
    exact ⟨n, h3, _, w, s1, hp a ha, h5⟩) N
  exact ⟨n, h3, does_app hq h4⟩

/-- The endpoint makes a step that is seen. -/
theorem ep_does {n : Nat} {x : Action} {o : Obs} {y : Ep.Action} {w : Ep.Obs}
    (h : r.act n = some (x, o)) (ho : o.ep = some (y, w)) {P : Ep.Action → Prop} (hy : P y) :
    (epRun r).Does n P :=
  ⟨y, w, by show (r.act n).bind _ = _; rw [h]; exact ho, hy⟩

theorem conns_more {s s' : Ep.State} {t : Ep.Trace} (e : Exec (Ep.step false) s t s') :
    s.connCount ≤ s'.connCount := by
  induction e with
  | nil => exact Nat.le_refl _
  | snoc _ hs ih => exact Nat.le_trans ih (Ep.move_of_step hs).connCount

theorem out_kept {s s' : Ep.State} {x : Ep.Action} {o : Ep.Obs} {c : Nat} {b : Bytes}
    (m : Ep.Move false s x o s') (h1 : ∀ ok, x ≠ .sent c ok) (h2 : x ≠ .connCmd c)
    (hb : (s.conns c).out = some b) (hc : c < s.connCount) (ha : (s'.conns c).alive = true) :
    (s'.conns c).out = some b := by
  cases m <;> first
    | exact hb
    | grind [upd, Ep.Conn.ended, Ep.newConn]

/-- If the operating system takes some bytes and it is not over, some bytes were left. -/
theorem wrote_some {b w : Bytes} {n k : Nat} (hk : 0 < k) (hp : Progress (some b) n)
    (hw : Tcp.send b n [] [.wrote k] = (.pending, w)) : 0 < w.length := by
  have hle : ¬ b.length < n := by
    rcases hp with h | ⟨rfl, rfl⟩
    · omega
    · simp
  rw [Tcp.send, if_neg hle] at hw
  dsimp only at hw
  split at hw
  · rename_i h
    simp only [Tcp.send, Prod.mk.injEq, true_and, List.nil_append] at hw
    subst hw
    simp only [List.length_take, List.length_drop] at h ⊢
    omega
  · cases hw

theorem ep_fair_send {c : Nat} (hc : r.FairTo (· = .app (.connCmd c))) (hw : r.FairTo (WriteStep c)) :
    (epRun r).FairTo (Ep.SendStep c) := by
  intro h N
  apply Classical.byContradiction
  intro hN
  have h0 : ∀ n, N ≤ n → ¬ (epRun r).Does n (Ep.SendStep c) := fun n hn hd => hN ⟨n, hn, hd⟩
  -- the sending task takes no command
  have h1 : ∃ M, N ≤ M ∧ ∀ n, M ≤ n → ¬ Ep.Enabled false (r.state n).ep (· = .connCmd c) := by
    apply Classical.byContradiction
    intro hc'
    obtain ⟨n, h2, h3⟩ := hc (fun M => by
      apply Classical.byContradiction
      intro hm
      refine hc' ⟨max M N, Nat.le_max_right .., fun n hn he => hm ⟨n, by omega, ?_⟩⟩
      obtain ⟨a, o, s', rfl, h2⟩ := he
      obtain ⟨s1, w, h3⟩ := can_app (s := r.state n) h2 nofun nofun
      exact ⟨_, w, s1, rfl, h3⟩) N
    exact h0 n h2 (does_app (fun y hy => ⟨_, hy, .inl rfl⟩) h3)
  obtain ⟨M, h1, h2⟩ := h1
  obtain ⟨n, h3, a, o, s', ha, h4⟩ := h M
  rcases ha with rfl | ⟨ok, rfl⟩
  · exact h2 n h3 ⟨_, o, s', rfl, h4⟩
  · obtain ⟨b, hb⟩ : ∃ b, ((r.state n).ep.conns c).out = some b := by
      cases hb : ((r.state n).ep.conns c).out with
      | some b => exact ⟨b, rfl⟩
      | none => simp [Ep.step, Ep.sent, epRun, hb] at h4
    have alive : ∀ m, n ≤ m → ((r.state m).ep.conns c).alive = true := by
      intro m hm
      cases ha : ((r.state m).ep.conns c).alive with
      | true => rfl
      | false =>
        exfalso
        have hlt := (out_alive (Ep.good_hist (part (r.exec n))).1 hb).2
        obtain ⟨t, -, h5⟩ := (epRun r).segment hm
        have hlt : c < (r.state m).ep.connCount := 
          Nat.lt_of_lt_of_le hlt (conns_more h5)
        have hdead : ∀ k, m ≤ k → ((r.state k).ep.conns c).alive = false := by
          intro k hk
          obtain ⟨t, -, h5⟩ := (epRun r).segment hk
          exact Ep.dead_exec hlt ha h5
        obtain ⟨k, h5, a, o, s', h6, h7⟩ := h m
        have h8 := (Ep.good_hist (part (r.exec k))).1.ended.conns c (hdead k h5)
        have h7 := Ep.move_of_step h7
        rcases h6 with rfl | ⟨ok, rfl⟩
        · generalize hy : Ep.Action.connCmd c = y at h7
          cases h7 <;> cases hy <;> simp_all [epRun]
        · generalize hy : Ep.Action.sent c ok = y at h7
          cases h7 <;> cases hy <;> simp_all [epRun]
    have key : ∀ m, n ≤ m → ((r.state m).ep.conns c).out = some b := by
      intro m hm
      induction m, hm using Nat.le_induction with
      | base => exact hb
      | succ m hm ih =>
        have h5 := alive (m + 1) (by omega)
        have h6 := h0 m (by omega)
        rcases (epRun r).move m with ⟨-, h7⟩ | ⟨a, o, h7, h8⟩
        · have h7 : (r.state (m + 1)).ep = (r.state m).ep := h7
          rw [h7]; exact ih
        · have h9 : ∀ ok, a ≠ .sent c ok := fun ok he => h6 ⟨a, o, h7, .inr ⟨ok, he⟩⟩
          have h10 : a ≠ .connCmd c := fun he => h6 ⟨a, o, h7, .inl he⟩
          have h11 := (out_alive (Ep.good_hist (part (r.exec m))).1 ih).2
          exact out_kept (Ep.move_of_step h8) h9 h10 ih h11 h5
    have hlt : ∀ m, n ≤ m → (r.state m).sent c ≤ b.length := by
      intro m hm
      have := (streams (r.exec m)).prog c (.inl (alive m hm))
      rw [key m hm] at this
      rcases this with h | ⟨h, -⟩ <;> omega
    have step1 : ∀ m, n ≤ m → (r.state m).sent c ≤ (r.state (m + 1)).sent c ∧
        (r.Does m (WriteStep c) → (r.state m).sent c < (r.state (m + 1)).sent c) := by
      intro m hm
      have h5 := key m hm
      have h6 := h0 m (by omega)
      have h12 := (streams (r.exec m)).prog c (.inl (alive m hm))
      rw [h5] at h12
      rcases r.move m with ⟨h7, h8⟩ | ⟨a, o, h7, h8⟩
      · rw [h8]
        refine ⟨Nat.le_refl _, ?_⟩
        rintro ⟨a, o, h9, -⟩
        rw [h7] at h9; cases h9
      · have h9 : ∀ ok w, o.ep ≠ some (.sent c ok, w) := fun ok w he =>
          h6 (ep_does h7 he (.inr ⟨ok, rfl⟩))
        have h10 : r.Does m (WriteStep c) → WriteStep c a := by
          rintro ⟨a', o', h10, h11⟩
          rw [h7] at h10; cases h10; exact h11
        generalize r.state (m + 1) = z at h8
        refine (fun (hh : (r.state m).sent c ≤ z.sent c ∧ (WriteStep c a →
          (r.state m).sent c < z.sent c)) => ⟨hh.1, fun h => hh.2 (h10 h)⟩) ?_
        cases move_of_step h8 with
        | taken d a b' w hb' hw =>
          by_cases hd : d = c
          · subst hd
            rw [h5] at hb'
            cases hb'
            simp only [upd_same]
            refine ⟨by omega, ?_⟩
            rintro ⟨k, hk, he⟩
            cases he
            have := wrote_some hk h12 hw
            omega
          · simp only [upd_ne _ _ (Ne.symm hd)]
            refine ⟨Nat.le_refl _, ?_⟩
            rintro ⟨k, hk, he⟩
            cases he
            exact absurd rfl hd
        | done d a b' w e o hb' hw he =>
          by_cases hd : d = c
          · subst hd; exact absurd rfl (h9 _ _)
          · simp only [upd_ne _ _ (Ne.symm hd)]
            refine ⟨Nat.le_refl _, ?_⟩
            rintro ⟨k, hk, he⟩
            cases he
            exact absurd rfl hd
        | failed d a b' b'' w e o hb' hw he =>
          by_cases hd : d = c
          · subst hd; exact absurd rfl (h9 _ _)
          · simp only [upd_ne _ _ (Ne.symm hd)]
            refine ⟨Nat.le_refl _, ?_⟩
            rintro ⟨k, hk, he⟩
            cases he
            exact absurd rfl hd
        | _ => exact ⟨Nat.le_refl _, by rintro ⟨k, hk, he⟩; cases he⟩
    obtain ⟨m, h5, h6⟩ := r.grows hw (fun m => (r.state m).sent c) (N := n)
      (fun m hm => (step1 m hm).1) (fun m hm => (step1 m hm).2) (fun M => by
        obtain ⟨s', o, h5⟩ := Rsomeip.C87_goes_on (r.exec (max M n)) (key (max M n) (by omega)) (.wrote 1)
        exact ⟨max M n, by omega, _, o, s', ⟨1, by omega, rfl⟩, h5⟩) (b.length + 1)
    have := hlt m h5
    omega

/-- The endpoint's part of a run in which nobody is passed over is such a run. -/
theorem ep_fair (hf : Fair r) : (epRun r).Fair := by
  constructor
  · refine fair_app hf.ep (fun y ⟨ok, hy⟩ => ⟨_, hy, ok, rfl⟩) (fun x ⟨ok, hx⟩ => ⟨ok, by rw [hx]⟩) ?_ ?_
    · rintro x c p ⟨ok, rfl⟩; nofun
    · rintro x c p ⟨ok, rfl⟩; nofun
  · intro l
    refine fair_app (hf.lis l) (fun y hy => ⟨_, hy, rfl⟩) (fun x hx => by rw [hx]) ?_ ?_
    · rintro x c p rfl; nofun
    · rintro x c p rfl; nofun
  · intro l
    refine fair_app (hf.route l) (fun y hy => ⟨_, hy, rfl⟩) (fun x hx => by rw [hx]) ?_ ?_
    · rintro x c p rfl; nofun
    · rintro x c p rfl; nofun
  · exact fun c => ep_fair_send (hf.cmd c) (hf.write c)
  · intro l
    refine fair_app (hf.call l) (fun y hy => ⟨_, hy, rfl⟩) (fun x hx => by rw [hx]) ?_ ?_
    · rintro x c p rfl; nofun
    · rintro x c p rfl; nofun

theorem ep_read (hr : Read r) : (epRun r).Read := ⟨hr.stubs, hr.proxies⟩

theorem ep_settles (hs : Settles r) : (epRun r).Settles := by
  obtain ⟨N, hN⟩ := hs
  refine ⟨N, fun n hn hd => ?_⟩
  obtain ⟨a, o, h1, h2⟩ := hd
  have h1 : (r.act n).bind (fun x => x.2.ep) = some (a, o) := h1
  obtain ⟨⟨x, w⟩, h3, h4⟩ := Option.bind_eq_some_iff.mp h1
  rcases r.move n with ⟨h5, _⟩ | ⟨a', o', h5, h6⟩
  · rw [h3] at h5; cases h5
  · rw [h3] at h5
    cases h5
    refine hN n hn ⟨_, w, h3, ?_⟩
    generalize r.state (n + 1) = t at h6
    clear h3 h1
    dsimp only at h4
    cases move_of_step h6 <;> simp only [Option.some.injEq, Prod.mk.injEq] at h4 <;>
      first
      | (obtain ⟨rfl, rfl⟩ := h4; rcases h2 with ⟨i, j, h⟩ | ⟨i, j, h⟩ <;> first
          | (cases h; done) | (subst h; simp))
      | cases h4

end Rsomeip.Rt.TcpNode
