import Verif.Spec.FairTcpCrash
import Verif.Lemmas.TcpRun
import Verif.Lemmas.TcpCrash

/-! # Runs of programs connected by TCP that crash -/

namespace Rsomeip.Rt.TcpCrash

open Spec Spec.TcpCrash
open Spec.TcpNode (app arrived written)
open Spec.Ep (Shown)
open TcpNet (set_apply)

variable {own : Addr → Bool}

/-- The program at `n` was started at time `T` and does not crash afterwards. -/
structure Begins (r : Run own) (n : Addr) (T : Nat) : Prop where
  start : (r.state T).nodes n = TcpNode.init
  fresh : life n (r.hist T) = []
  stays : Stays r n T

/-- A program that does not crash any more was started at some time. -/
theorem begins {r : Run own} {n : Addr} : ∀ {T : Nat}, Stays r n T → ∃ U, U ≤ T ∧ Begins r n U
  | 0, h => ⟨0, Nat.le_refl _, by rw [r.start]; rfl, rfl, h⟩
  | T + 1, h => by
    by_cases hc : r.Does T (· = .crash n)
    · obtain ⟨a, o, h1, rfl⟩ := hc
      refine ⟨T + 1, Nat.le_refl _, ?_, ?_, h⟩
      · rcases r.move T with ⟨h2, -⟩ | ⟨a, o', h2, h3⟩
        · rw [h1] at h2; cases h2
        · rw [h1] at h2
          cases h2
          obtain ⟨-, -, h4⟩ := step_crash h3
          rw [h4]
          exact upd_same ..
      · rw [r.hist_succ, h1, Option.toList_some, life, story_crash]
    · obtain ⟨U, h1, h2⟩ := begins (r := r) (n := n) (T := T) fun t ht => by
        rcases Nat.eq_or_lt_of_le ht with rfl | ht
        · exact hc
        · exact h t ht
      exact ⟨U, by omega, h2⟩

/-- What the program at `n` does in a run since it was started last. -/
def nodeRun (r : Run own) {n : Addr} {T : Nat} (h : Begins r n T) : Spec.TcpNode.Run where
  state t := if t < T then TcpNode.init else (r.state t).nodes n
  act t := if t < T then none else (r.act t).bind fun x => match x.1 with
    | .net m y _ => if m = n then some (y, x.2) else none
    | .crash _ => none
  start := by
    split
    · rfl
    · rw [r.start]; rfl
  next t := by
    rcases Nat.lt_trichotomy (t + 1) T with h1 | h1 | h1
    · rw [if_pos (show t < T by omega), if_pos (show t < T by omega), if_pos h1]
    · rw [if_pos (show t < T by omega), if_pos (show t < T by omega), if_neg (by omega), h1, h.start]
    · rw [if_neg (show ¬ t < T by omega), if_neg (show ¬ t < T by omega), if_neg (by omega)]
      rcases r.move t with ⟨h2, h3⟩ | ⟨a, o, h2, h3⟩
      · rw [h2, h3]; rfl
      · rw [h2]
        cases a with
        | net m y d =>
          obtain ⟨-, z, hz, h4, -⟩ := effect h3
          rw [h4]
          by_cases hy : m = n
          · subst hy
            simp only [Option.bind_some, if_true, upd_same]
            exact hz
          · simp only [Option.bind_some, if_neg hy]
            exact upd_ne _ _ (Ne.symm hy)
        | crash m =>
          obtain ⟨-, -, h4⟩ := step_crash h3
          rw [h4]
          simp only [Option.bind_some]
          exact upd_ne _ _ fun hm => h.stays t (by omega) ⟨_, _, h2, by rw [hm]⟩

variable {r : Run own} {n : Addr} {T : Nat}

theorem nodeRun_act (h : Begins r n T) {t d : Nat} {x : TcpNode.Action} {o : TcpNode.Obs} (ht : T ≤ t)
    (h1 : r.act t = some (.net n x d, o)) : (nodeRun r h).act t = some (x, o) := by
  show (if t < T then _ else _) = _
  rw [if_neg (by omega), h1]
  simp

theorem nodeRun_act' (h : Begins r n T) {t : Nat} {x : TcpNode.Action} {o : TcpNode.Obs}
    (h1 : (nodeRun r h).act t = some (x, o)) : T ≤ t ∧ ∃ d, r.act t = some (.net n x d, o) := by
  have ht : T ≤ t := by
    refine Nat.le_of_not_lt fun ht => ?_
    rw [show (nodeRun r h).act t = none from if_pos ht] at h1
    cases h1
  refine ⟨ht, ?_⟩
  rw [show (nodeRun r h).act t = _ from if_neg (by omega)] at h1
  obtain ⟨⟨y, o'⟩, h4, h2⟩ := Option.bind_eq_some_iff.mp h1
  dsimp only at h2
  split at h2
  · split at h2
    · rename_i h3
      cases h2
      subst h3
      exact ⟨_, h4⟩
    · cases h2
  · cases h2

theorem nodeRun_state (h : Begins r n T) {t : Nat} (ht : T ≤ t) : (nodeRun r h).state t = (r.state t).nodes n :=
  if_neg (by omega)

theorem nodeRun_hist (h : Begins r n T) {t : Nat} (ht : T ≤ t) : (nodeRun r h).hist t = life n (r.hist t) := by
  induction t, ht using Nat.le_induction with
  | base =>
    rw [h.fresh, Endless.hist, List.filterMap_eq_nil_iff]
    intro t ht
    exact if_pos (List.mem_range.mp ht)
  | succ t ht ih =>
    rw [Endless.hist_succ, ih, Endless.hist_succ]
    rcases hr : r.act t with _ | ⟨⟨y, z, d⟩ | m, o⟩
    · rw [show (nodeRun r h).act t = none by show (if _ then _ else _) = _; rw [if_neg (by omega), hr]; rfl]
      simp
    · by_cases hy : y = n
      · subst hy
        rw [nodeRun_act h ht hr]
        unfold life
        rw [Option.toList_some, Option.toList_some, story_here]
      · rw [show (nodeRun r h).act t = none by
          show (if _ then _ else _) = _
          rw [if_neg (by omega), hr, Option.bind_some]
          exact if_neg hy]
        unfold life
        rw [Option.toList_some, story_there _ _ _ _ hy]
        simp
    · have hm : m ≠ n := fun hm => h.stays t ht ⟨_, _, hr, by rw [hm]⟩
      rw [show (nodeRun r h).act t = none by
        show (if _ then _ else _) = _
        rw [if_neg (by omega), hr, Option.bind_some]]
      unfold life
      rw [Option.toList_some, story_other _ _ _ hm]
      simp

theorem node_fair (h : Begins r n T) {P : TcpNode.Action → Prop} (hn : own n = true)
    (hp : ∀ x, P x → (∀ l a, x ≠ .app (.accept l a)) ∧ ∀ c b, x ≠ .arrive c b)
    (hf : r.FairTo (At n P)) : (nodeRun r h).FairTo P := by
  intro hio N
  obtain ⟨t, h1, a, o, h2, y, d, rfl, h3⟩ := hf (fun M => by
    obtain ⟨t, h1, a, o, s', h2, h3⟩ := hio (max M T)
    rw [nodeRun_state h (by omega)] at h3
    have h4 : possible own (r.state t) n 0 a = true := by
      have h4 := hp a h2
      unfold possible
      split
      · exact absurd rfl (h4.1 _ _)
      · exact absurd rfl (h4.2 _ _)
      · rfl
    exact ⟨t, by omega, .net n a 0, o, _, ⟨_, _, rfl, h2⟩, by simp [step, hn, h4, h3]; rfl⟩) (max N T)
  exact ⟨t, by omega, y, o, nodeRun_act h (by omega) h2, h3⟩

theorem fair_node (h : Begins r n T) (hf : Fair r n) (hn : own n = true) : Spec.TcpNode.Fair (nodeRun r h) := by
  constructor
  · exact node_fair h hn (by rintro x ⟨ok, rfl⟩; simp) hf.ep
  · exact fun l => node_fair h hn (by rintro x rfl; simp) (hf.lis l)
  · exact fun l => node_fair h hn (by rintro x rfl; simp) (hf.route l)
  · exact fun l => node_fair h hn (by rintro x rfl; simp) (hf.cmd l)
  · exact fun l => node_fair h hn (by rintro x ⟨k, hk, rfl⟩; simp) (hf.write l)
  · exact fun l => node_fair h hn (by rintro x ⟨k, rfl⟩; simp) (hf.read l)
  · exact fun l => node_fair h hn (by rintro x rfl; simp) (hf.call l)

theorem read_node (h : Begins r n T) (hr : Read r n) : Spec.TcpNode.Read (nodeRun r h) := by
  constructor
  · intro k N
    obtain ⟨t, h1, h2⟩ := hr.stubs k (max N T)
    exact ⟨t, by omega, by rw [nodeRun_state h (by omega)]; exact h2⟩
  · intro k N
    obtain ⟨t, h1, h2⟩ := hr.proxies k (max N T)
    exact ⟨t, by omega, by rw [nodeRun_state h (by omega)]; exact h2⟩

theorem settles_node (h : Begins r n T) (hs : Settles r n) : Spec.TcpNode.Settles (nodeRun r h) := by
  obtain ⟨N, hN⟩ := hs
  refine ⟨N, fun t ht => ?_⟩
  rintro ⟨a, o, h1, h2⟩
  obtain ⟨d, h3⟩ := (nodeRun_act' h h1).2
  exact hN t ht ⟨.net n a d, o, h3, _, _, rfl, h2⟩

/-! ### Ends of connections -/

theorem peer_kept {tr : Trace} {s s' : State} {x : Action} {o : TcpNode.Obs}
    (e : Exec (step own) init tr s) (hs : step own s x = some (s', o)) {n : Addr} {g : Nat} {w : Addr × Nat}
    (h : s.peer n g = some w) : s'.peer n g = some w := by
  cases x with
  | crash m =>
    obtain ⟨_, rfl, rfl⟩ := step_crash hs
    exact h
  | net m x d =>
    obtain ⟨ad, W, A, hg⟩ := ghost e
    obtain ⟨_, t, _, _, _, he⟩ := effect hs
    obtain ⟨b, k⟩ := w
    have h1 := (hg.links.addr n g b k h).1
    generalize s'.peer = p at he ⊢
    generalize s'.backlog = q at he
    generalize s'.pipe = i at he
    cases he with
    | link a e h3 _ _ _ _ hd =>
      rw [set_apply, set_apply]
      have h2 : ¬ (n = m ∧ g = s.count m) := by rintro ⟨rfl, rfl⟩; omega
      have h4 : ¬ (n = a ∧ g = e) := by
        rintro ⟨rfl, rfl⟩
        rcases hd with hd | ⟨rfl, rfl⟩
        · rw [(hg.links.wait _ _ _ hd).1] at h; cases h
        · omega
      rw [if_neg h4, if_neg h2]
      exact h
    | _ => exact h

theorem peer_stays (r : Run own) {t u : Nat} (hu : t ≤ u) {n : Addr} {g : Nat} {w : Addr × Nat}
    (h : (r.state t).peer n g = some w) : (r.state u).peer n g = some w := by
  induction u, hu using Nat.le_induction with
  | base => exact h
  | succ u hu ih =>
    rcases r.move u with ⟨_, h2⟩ | ⟨x, o, _, h2⟩
    · rw [h2]; exact ih
    · exact peer_kept (r.exec u) h2 ih

theorem base_stays (hs : Stays r n T) {t : Nat} (ht : T ≤ t) : (r.state t).base n = (r.state T).base n := by
  induction t, ht using Nat.le_induction with
  | base => rfl
  | succ t ht ih =>
    rcases r.move t with ⟨_, h2⟩ | ⟨x, o, h1, h2⟩
    · rw [h2]; exact ih
    · cases x with
      | net m y d =>
        obtain ⟨-, _, _, _, h3, _⟩ := effect h2
        rw [h3]; exact ih
      | crash m =>
        obtain ⟨-, -, h3⟩ := step_crash h2
        rw [h3]
        dsimp only
        rw [upd_ne _ _ fun hm : n = m => hs t ht ⟨_, _, h1, by rw [hm]⟩]
        exact ih

/-- A connection accepted from another of the programs has its other end there. -/
theorem accept_paired {tr : Trace} {s : State} (e : Exec (step own) init tr s) {n m : Addr} {l c : Nat}
    (hm : own m = true) (h : (.accept l m, .opened c m) ∈ app (life n tr)) :
    ∃ g, s.peer n (s.base n + c) = some (m, g) := by
  induction e with
  | nil => cases h
  | @snoc tr1 s1 s2 act ob e1 hs ih =>
    cases act with
    | crash k =>
      by_cases hk : k = n
      · subst hk
        rw [life, story_crash] at h
        cases h
      · rw [life, story_other _ _ _ hk] at h
        obtain ⟨_, rfl, rfl⟩ := step_crash hs
        dsimp only
        rw [upd_ne _ _ (Ne.symm hk)]
        exact ih h
    | net n' x d' =>
      obtain ⟨-, _, _, _, hb, _⟩ := effect hs
      rw [hb]
      by_cases h0 : (.accept l m, .opened c m) ∈ app (life n tr1)
      · exact (ih h0).imp fun d hd => peer_kept e1 hs hd
      · by_cases hn : n' = n
        · subst hn
          rw [life, story_here, TcpNode.app_snoc, List.mem_append] at h
          replace h := h.resolve_left h0
          obtain ⟨_, hp, t, ht, rfl⟩ := step_net hs
          have h2 : ob.ep = some (.accept l m, .opened c m) := by simpa using h
          cases TcpNode.move_of_step ht with
          | app x y o h3 h4 he =>
            cases h2
            simp only [carry, if_pos hm, link, set_apply]
            refine ⟨d', ?_⟩
            split
            · rename_i h5
              obtain ⟨rfl, rfl⟩ := h5
              rfl
            · simp
          | _ => simp at h2
        · rw [life, story_there _ _ _ _ hn] at h
          exact absurd h h0

end Rsomeip.Rt.TcpCrash
