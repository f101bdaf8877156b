import Verif.Spec.Crash
import Verif.Lemmas.Net
import Verif.Lemmas.NodeRun
import Verif.Lemmas.FairRun

/-! # Histories of programs that crash -/

namespace Rsomeip.Rt.Crash

open Spec Spec.Crash

variable {own : Addr → Bool}

theorem story_snoc (n : Addr) (tr : Trace) (x : Action) (o : Node.Obs) : story n (tr ++ [(x, o)]) =
    match x with
    | .net y => if y.1 = n then ((story n tr).1, (story n tr).2 ++ [(y.2, o)]) else story n tr
    | .crash m => if m = n then ((story n tr).1 ++ [(story n tr).2], []) else story n tr := by
  rw [story, List.foldl_append]
  cases x <;> rfl

theorem story_here (n : Addr) (tr : Trace) (y : Node.Action) (o : Node.Obs) :
    story n (tr ++ [(.net (n, y), o)]) = ((story n tr).1, (story n tr).2 ++ [(y, o)]) := by
  rw [story_snoc]
  dsimp only
  rw [if_pos rfl]

theorem story_there (n : Addr) (tr : Trace) {y : Addr} {z : Node.Action} (o : Node.Obs) (h : y ≠ n) :
    story n (tr ++ [(.net (y, z), o)]) = story n tr := by
  rw [story_snoc]
  dsimp only
  rw [if_neg h]

theorem story_crash (n : Addr) (tr : Trace) (o : Node.Obs) :
    story n (tr ++ [(.crash n, o)]) = ((story n tr).1 ++ [(story n tr).2], []) := by
  rw [story_snoc]
  dsimp only
  rw [if_pos rfl]

theorem story_other (n : Addr) (tr : Trace) {m : Addr} (o : Node.Obs) (h : m ≠ n) :
    story n (tr ++ [(.crash m, o)]) = story n tr := by
  rw [story_snoc]
  dsimp only
  rw [if_neg h]

theorem life_mem (n : Addr) (tr : Trace) : life n tr ∈ lives n tr := by simp [life, lives]

theorem step_crash {s s' : Net.State} {n : Addr} {o : Node.Obs} (h : step own s (.crash n) = some (s', o)) :
    own n = true ∧ s' = { s with nodes := upd s.nodes n Node.init } ∧ o = ⟨none, [], []⟩ := by
  simp only [step] at h
  split at h
  · cases h; exact ⟨by assumption, rfl, rfl⟩
  · cases h

/-- Every program on its own since it was started last. -/
theorem living {tr : Trace} {s : Net.State} (e : Exec (step own) Net.init tr s) (n : Addr) :
    Exec Node.step Node.init (life n tr) (s.nodes n) := by
  induction e with
  | nil => exact .nil
  | @snoc tr1 s1 s2 act ob e1 hs ih =>
    unfold life at ih ⊢
    cases act with
    | net y =>
      obtain ⟨y, z⟩ := y
      obtain ⟨_, _, t, ht, rfl⟩ := Net.step_inv hs
      by_cases h : y = n
      · subst h
        rw [story_here]
        dsimp only
        rw [upd_same]
        exact .snoc ih ht
      · rw [story_there _ _ _ h]
        dsimp only
        rw [upd_ne _ _ (Ne.symm h)]
        exact ih
    | crash m =>
      obtain ⟨_, rfl, _⟩ := step_crash hs
      by_cases h : m = n
      · subst h
        rw [story_crash]
        dsimp only
        rw [upd_same]
        exact .nil
      · rw [story_other _ _ _ h]
        dsimp only
        rw [upd_ne _ _ (Ne.symm h)]
        exact ih

/-- Every life of a program is that of a program on its own. -/
theorem lived {tr : Trace} {s : Net.State} (e : Exec (step own) Net.init tr s) (n : Addr) :
    ∀ L ∈ lives n tr, ∃ t, Exec Node.step Node.init L t := by
  induction e with
  | nil =>
    intro L hL
    simp only [lives, story, List.foldl_nil, List.nil_append, List.mem_singleton] at hL
    subst hL
    exact ⟨_, .nil⟩
  | @snoc tr1 s1 s2 act ob e1 hs ih =>
    intro L hL
    have e2 := living (.snoc e1 hs) n
    rw [lives, List.mem_append, List.mem_singleton] at hL
    rcases hL with hL | rfl
    · cases act with
      | net y =>
        obtain ⟨y, z⟩ := y
        refine ih L (List.mem_append_left _ ?_)
        by_cases h : y = n
        · subst h
          rwa [story_here] at hL
        · rwa [story_there _ _ _ h] at hL
      | crash m =>
        by_cases h : m = n
        · subst h
          rw [story_crash] at hL
          exact ih L hL
        · rw [story_other _ _ _ h] at hL
          exact ih L (List.mem_append_left _ hL)
    · exact ⟨_, e2⟩

/-- What a program has sent in its lives is on the network. -/
theorem on_network {tr : Trace} {s : Net.State} (e : Exec (step own) Net.init tr s) (n a : Addr) (p : Bytes) :
    (n, a, p) ∈ s.sent ↔ ∃ L ∈ lives n tr, (a, p) ∈ Spec.Node.out L := by
  induction e with
  | nil => simp [Net.init, lives, story, Spec.Node.out]
  | @snoc tr1 s1 s2 act ob e1 hs ih =>
    cases act with
    | net y =>
      obtain ⟨y, z⟩ := y
      obtain ⟨_, _, t, ht, rfl⟩ := Net.step_inv hs
      dsimp only
      rw [List.mem_append, ih]
      by_cases h : y = n
      · subst h
        simp only [lives, story_here, List.mem_append, List.mem_singleton, List.mem_map]
        constructor
        · rintro (⟨L, h1 | rfl, h2⟩ | ⟨y, hy, h⟩)
          · exact ⟨L, .inl h1, h2⟩
          · exact ⟨_, .inr rfl, by rw [Node.out_snoc]; exact List.mem_append_left _ h2⟩
          · cases h
            exact ⟨_, .inr rfl, by rw [Node.out_snoc]; exact List.mem_append_right _ hy⟩
        · rintro ⟨L, h1 | rfl, h2⟩
          · exact .inl ⟨L, .inl h1, h2⟩
          · rw [Node.out_snoc, List.mem_append] at h2
            rcases h2 with h2 | h2
            · exact .inl ⟨_, .inr rfl, h2⟩
            · exact .inr ⟨_, h2, rfl⟩
      · simp only [lives, story_there _ _ _ h]
        constructor
        · rintro (h1 | h1)
          · exact h1
          · obtain ⟨w, -, h2⟩ := List.mem_map.mp h1
            cases h2
            exact absurd rfl h
        · exact .inl
    | crash m =>
      obtain ⟨_, rfl, _⟩ := step_crash hs
      dsimp only
      rw [ih]
      by_cases h : m = n
      · subst h
        simp only [lives, story_crash, List.mem_append, List.mem_singleton]
        constructor
        · rintro ⟨L, h1, h2⟩
          exact ⟨L, .inl h1, h2⟩
        · rintro ⟨L, h1 | rfl, h2⟩
          · exact ⟨L, h1, h2⟩
          · simp [Spec.Node.out] at h2
      · simp only [lives, story_other _ _ _ h]

/-- What has been sent stays sent. -/
theorem out_mono {tr : Trace} {s s' : Net.State} {x : Action} {o : Node.Obs}
    (e : Exec (step own) Net.init tr s) (hs : step own s x = some (s', o)) {n a : Addr} {p : Bytes}
    (h : ∃ L ∈ lives n tr, (a, p) ∈ Spec.Node.out L) : ∃ L ∈ lives n (tr ++ [(x, o)]), (a, p) ∈ Spec.Node.out L := by
  rw [← on_network e] at h
  rw [← on_network (e.snoc hs)]
  cases x with
  | net y =>
    obtain ⟨_, _, t, ht, rfl⟩ := Net.step_inv hs
    exact List.mem_append_left _ h
  | crash m =>
    obtain ⟨_, rfl, _⟩ := step_crash hs
    exact h

/-- A datagram from one of the programs was sent by it in one of its lives. -/
theorem arrived_sent {tr : Trace} {s : Net.State} (e : Exec (step own) Net.init tr s)
    {a n : Addr} (ha : own a = true) {b : Bytes} (h : b ∈ Spec.Node.arrivals a (life n tr)) :
    ∃ p, b = p.take 1400 ∧ ∃ L ∈ lives a tr, (n, p) ∈ Spec.Node.out L := by
  induction e with
  | nil => simp [life, story, Spec.Node.arrivals] at h
  | @snoc tr1 s1 s2 act ob e1 hs ih =>
    have keep : (∃ p, b = p.take 1400 ∧ ∃ L ∈ lives a tr1, (n, p) ∈ Spec.Node.out L) →
        ∃ p, b = p.take 1400 ∧ ∃ L ∈ lives a (tr1 ++ [(act, ob)]), (n, p) ∈ Spec.Node.out L :=
      fun ⟨p, h1, h2⟩ => ⟨p, h1, out_mono e1 hs h2⟩
    refine keep ?_
    unfold life at h ih
    cases act with
    | net y =>
      obtain ⟨y, z⟩ := y
      by_cases hy : y = n
      · subst hy
        rw [story_here] at h
        dsimp only at h
        rw [Node.arrivals_append, List.mem_append] at h
        rcases h with h | h
        · exact ih h
        · simp only [Spec.Node.arrivals, List.mem_filterMap, List.mem_singleton] at h
          obtain ⟨w, rfl, hz⟩ := h
          obtain ⟨-, hd, -⟩ := Net.step_inv hs
          cases z <;> simp only [reduceCtorEq] at hz
          rename_i b' p
          split at hz
          · rename_i hb
            subst hb
            cases hz
            refine ⟨p, rfl, (on_network e1 _ _ _).mp ?_⟩
            simpa [Net.deliverable, ha] using hd
          · cases hz
      · rw [story_there _ _ _ hy] at h
        exact ih h
    | crash m =>
      by_cases hm : m = n
      · subst hm
        rw [story_crash] at h
        simp [Spec.Node.arrivals] at h
      · rw [story_other _ _ _ hm] at h
        exact ih h

/-! ### Runs -/

/-- The program at `n` was started at time `T` and does not crash afterwards. -/
structure Begins (r : Run own) (n : Addr) (T : Nat) : Prop where
  start : (r.state T).nodes n = Node.init
  fresh : life n (r.hist T) = []
  stays : Stays r n T

/-- A program that does not crash any more was started at some time. -/
theorem begins {r : Run own} {n : Addr} : ∀ {T : Nat}, Stays r n T → ∃ U, U ≤ T ∧ Begins r n U
  | 0, h => ⟨0, Nat.le_refl _, by rw [r.start]; rfl, rfl, h⟩
  | T + 1, h => by
    by_cases hc : r.Does T (· = .crash n)
    · obtain ⟨a, o, h1, rfl⟩ := hc
      refine ⟨T + 1, Nat.le_refl _, ?_, ?_, h⟩
      · rcases r.move T with ⟨h2, -⟩ | ⟨a, o', h2, h3⟩
        · rw [h1] at h2; cases h2
        · rw [h1] at h2
          cases h2
          obtain ⟨-, h4, -⟩ := step_crash h3
          rw [h4]
          exact upd_same ..
      · rw [r.hist_succ, h1, Option.toList_some, life, story_crash]
    · obtain ⟨U, h1, h2⟩ := begins (r := r) (n := n) (T := T) fun t ht => by
        rcases Nat.eq_or_lt_of_le ht with rfl | ht
        · exact hc
        · exact h t ht
      exact ⟨U, by omega, h2⟩

/-- What the program at `n` does in a run since it was started last. -/
def nodeRun (r : Run own) {n : Addr} {T : Nat} (h : Begins r n T) : Spec.Node.Run where
  state t := if t < T then Node.init else (r.state t).nodes n
  act t := if t < T then none else (r.act t).bind fun x => match x.1 with
    | .net y => if y.1 = n then some (y.2, x.2) else none
    | .crash _ => none
  start := by
    split
    · rfl
    · rw [r.start]; rfl
  next t := by
    rcases Nat.lt_trichotomy (t + 1) T with h1 | h1 | h1
    · rw [if_pos (show t < T by omega), if_pos (show t < T by omega), if_pos h1]
    · rw [if_pos (show t < T by omega), if_pos (show t < T by omega), if_neg (by omega), h1, h.start]
    · rw [if_neg (show ¬ t < T by omega), if_neg (show ¬ t < T by omega), if_neg (by omega)]
      rcases r.move t with ⟨h2, h3⟩ | ⟨a, o, h2, h3⟩
      · rw [h2, h3]; rfl
      · rw [h2]
        cases a with
        | net y =>
          obtain ⟨-, -, z, hz, h4⟩ := Net.step_inv h3
          rw [h4]
          by_cases hy : y.1 = n
          · subst hy
            simp only [Option.bind_some, if_true, upd_same]
            exact hz
          · simp only [Option.bind_some, if_neg hy]
            exact upd_ne _ _ (Ne.symm hy)
        | crash m =>
          obtain ⟨-, h4, -⟩ := step_crash h3
          rw [h4]
          simp only [Option.bind_some]
          exact upd_ne _ _ fun hm => h.stays t (by omega) ⟨_, _, h2, by rw [hm]⟩

variable {r : Run own} {n : Addr} {T : Nat}

theorem nodeRun_act (h : Begins r n T) {t : Nat} {x : Node.Action} {o : Node.Obs} (ht : T ≤ t) :
    (nodeRun r h).act t = some (x, o) ↔ r.act t = some (.net (n, x), o) := by
  show (if t < T then _ else _) = _ ↔ _
  rw [if_neg (by omega)]
  constructor
  · intro h1
    obtain ⟨⟨y, o'⟩, h1, h2⟩ := Option.bind_eq_some_iff.mp h1
    dsimp only at h2
    split at h2
    · split at h2
      · rename_i h3
        cases h2
        rw [h1, ← h3]
      · cases h2
    · cases h2
  · intro h1
    rw [h1]
    simp

theorem nodeRun_act' (h : Begins r n T) {t : Nat} {x : Node.Action} {o : Node.Obs}
    (h1 : (nodeRun r h).act t = some (x, o)) : T ≤ t ∧ r.act t = some (.net (n, x), o) := by
  have ht : T ≤ t := by
    refine Nat.le_of_not_lt fun ht => ?_
    rw [show (nodeRun r h).act t = none from if_pos ht] at h1
    cases h1
  exact ⟨ht, (nodeRun_act h ht).mp h1⟩

theorem nodeRun_state (h : Begins r n T) {t : Nat} (ht : T ≤ t) : (nodeRun r h).state t = (r.state t).nodes n :=
  if_neg (by omega)

theorem nodeRun_hist (h : Begins r n T) {t : Nat} (ht : T ≤ t) : (nodeRun r h).hist t = life n (r.hist t) := by
  induction t, ht using Nat.le_induction with
  | base =>
    rw [h.fresh, Endless.hist, List.filterMap_eq_nil_iff]
    intro t ht
    exact if_pos (List.mem_range.mp ht)
  | succ t ht ih =>
    rw [Endless.hist_succ, ih, Endless.hist_succ]
    rcases hr : r.act t with _ | ⟨⟨y, z⟩ | m, o⟩
    · rw [show (nodeRun r h).act t = none by show (if _ then _ else _) = _; rw [if_neg (by omega), hr]; rfl]
      simp
    · by_cases hy : y = n
      · subst hy
        rw [(nodeRun_act h ht).mpr hr]
        unfold life
        rw [Option.toList_some, Option.toList_some, story_here]
      · rw [show (nodeRun r h).act t = none by
          show (if _ then _ else _) = _
          rw [if_neg (by omega), hr, Option.bind_some]
          exact if_neg hy]
        unfold life
        rw [Option.toList_some, story_there _ _ _ hy]
        simp
    · have hm : m ≠ n := fun hm => h.stays t ht ⟨_, _, hr, by rw [hm]⟩
      rw [show (nodeRun r h).act t = none by
        show (if _ then _ else _) = _
        rw [if_neg (by omega), hr, Option.bind_some]]
      unfold life
      rw [Option.toList_some, story_other _ _ _ hm]
      simp

theorem node_fair (h : Begins r n T) {P : Node.Action → Prop} (hn : own n = true)
    (hp : ∀ a p, ¬ P (.datagram a p)) (hf : r.FairTo (At n P)) : (nodeRun r h).FairTo P := by
  intro hio N
  obtain ⟨t, h1, a, o, h2, y, rfl, h3⟩ := hf (fun M => by
    obtain ⟨t, h1, a, o, s', h2, h3⟩ := hio (max M T)
    rw [nodeRun_state h (by omega)] at h3
    have h4 : Net.deliverable own (r.state t) n a = true := by
      unfold Net.deliverable
      split
      · exact absurd h2 (hp _ _)
      · rfl
    exact ⟨t, by omega, .net (n, a), o, _, ⟨_, rfl, h2⟩, by simp [step, Net.step, hn, h4, h3]; rfl⟩) (max N T)
  exact ⟨t, by omega, y, o, (nodeRun_act h (by omega)).mpr h2, h3⟩

theorem fair_node (h : Begins r n T) (hf : Fair r n) (hn : own n = true) : Spec.Node.Fair (nodeRun r h) := by
  constructor
  · exact node_fair h hn (by rintro a p ⟨ok, h⟩; cases h) hf.ep
  · exact fun l => node_fair h hn (by rintro a p h; cases h) (hf.lis l)
  · exact fun l => node_fair h hn (by rintro a p ⟨ok, h⟩; cases h) (hf.accept l)
  · exact fun l => node_fair h hn (by rintro a p h; cases h) (hf.share l)
  · exact fun l => node_fair h hn (by rintro a p h; cases h) (hf.route l)
  · exact fun l => node_fair h hn (by rintro a p ⟨ok, h⟩; cases h) (hf.recv l)
  · exact fun l => node_fair h hn (by rintro a p (h | ⟨ok, h⟩) <;> cases h) (hf.send l)
  · exact fun l => node_fair h hn (by rintro a p h; cases h) (hf.call l)
  · exact node_fair h hn (by rintro a p h; cases h) hf.task

theorem read_node (h : Begins r n T) (hr : Read r n) : Spec.Node.Read (nodeRun r h) := by
  constructor
  · intro k N
    obtain ⟨t, h1, h2⟩ := hr.stubs k (max N T)
    exact ⟨t, by omega, by rw [nodeRun_state h (by omega)]; exact h2⟩
  · intro k N
    obtain ⟨t, h1, h2⟩ := hr.proxies k (max N T)
    exact ⟨t, by omega, by rw [nodeRun_state h (by omega)]; exact h2⟩

theorem settles_node (h : Begins r n T) (hs : Settles r n) : Spec.Node.Settles (nodeRun r h) := by
  obtain ⟨N, hN⟩ := hs
  refine ⟨N, fun t ht => ?_⟩
  rintro ⟨a, o, h1, h2⟩
  exact hN t ht ⟨.net (n, a), o, (nodeRun_act' h h1).2, _, rfl, h2⟩

/-- What the network carries from one program to another. -/
theorem pair_carries {a : Addr} {U V : Nat} (h : Begins r a U) (h' : Begins r n V) (hV : V ≤ T)
    (hw : Carries r a n T) (v c : Nat) (o : Node.Obs) (p : Bytes) (hv : T ≤ v)
    (h1 : (nodeRun r h).act v = some (.app (.sent c true), o)) (hp : (n, p) ∈ o.out) :
    ∃ u, v < u ∧ ((∃ o', (nodeRun r h').act u = some (.datagram a p, o')) ∨
      (.failure, .none) ∈ Spec.Node.socket ((nodeRun r h').hist u)) := by
  obtain ⟨u, h2, ⟨o', h3⟩ | h3⟩ := hw v c o p hv (nodeRun_act' h h1).2 hp
  · exact ⟨u, h2, .inl ⟨o', (nodeRun_act h' (by omega)).mpr h3⟩⟩
  · exact ⟨u, h2, .inr (by rw [nodeRun_hist h' (by omega)]; exact h3)⟩

end Rsomeip.Rt.Crash
