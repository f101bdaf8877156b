import Verif.Spec.TcpCrash
import Verif.Lemmas.TcpTally

/-! # Histories of programs connected by TCP that crash -/

namespace Rsomeip.Rt.TcpCrash

open Spec Spec.TcpCrash
open Spec.TcpNode (written arrived app)
open Spec.Ep (Shown)
open TcpNet (set set_apply Links wrote came)
open TcpTally (Tally)

variable {own : Addr → Bool}

theorem story_snoc (n : Addr) (tr : Trace) (x : Action) (o : TcpNode.Obs) : story n (tr ++ [(x, o)]) =
    match x with
    | .net m y _ => if m = n then ((story n tr).1, (story n tr).2 ++ [(y, o)]) else story n tr
    | .crash m => if m = n then ((story n tr).1 ++ [(story n tr).2], []) else story n tr := by
  rw [story, List.foldl_append]
  cases x <;> rfl

theorem story_here (n : Addr) (tr : Trace) (y : TcpNode.Action) (d : Nat) (o : TcpNode.Obs) :
    story n (tr ++ [(.net n y d, o)]) = ((story n tr).1, (story n tr).2 ++ [(y, o)]) := by
  rw [story_snoc]
  dsimp only
  rw [if_pos rfl]

theorem story_there (n : Addr) (tr : Trace) {m : Addr} {y : TcpNode.Action} (d : Nat) (o : TcpNode.Obs)
    (h : m ≠ n) : story n (tr ++ [(.net m y d, o)]) = story n tr := by
  rw [story_snoc]
  dsimp only
  rw [if_neg h]

theorem story_crash (n : Addr) (tr : Trace) (o : TcpNode.Obs) :
    story n (tr ++ [(.crash n, o)]) = ((story n tr).1 ++ [(story n tr).2], []) := by
  rw [story_snoc]
  dsimp only
  rw [if_pos rfl]

theorem story_other (n : Addr) (tr : Trace) {m : Addr} (o : TcpNode.Obs) (h : m ≠ n) :
    story n (tr ++ [(.crash m, o)]) = story n tr := by
  rw [story_snoc]
  dsimp only
  rw [if_neg h]

theorem life_mem (n : Addr) (tr : Trace) : life n tr ∈ lives n tr := by simp [life, lives]

theorem past_mem {n : Addr} {tr : Trace} {L : Spec.TcpNode.Trace} (h : L ∈ (story n tr).1) : L ∈ lives n tr :=
  List.mem_append_left _ h

theorem step_net {s s' : State} {n : Addr} {x : TcpNode.Action} {d : Nat} {o : TcpNode.Obs}
    (h : step own s (.net n x d) = some (s', o)) : own n = true ∧ possible own s n d x = true ∧
    ∃ t, TcpNode.step (s.nodes n) x = some (t, o) ∧
      s' = { carry own s n d x o with nodes := upd s.nodes n t } := by
  simp only [step] at h
  split at h
  · rename_i hc
    rw [Bool.and_eq_true] at hc
    split at h
    · rename_i t w ht
      cases h
      exact ⟨hc.1, hc.2, t, ht, rfl⟩
    · cases h
  · cases h

theorem step_crash {s s' : State} {n : Addr} {o : TcpNode.Obs} (h : step own s (.crash n) = some (s', o)) :
    own n = true ∧ o = ⟨none, none⟩ ∧
    s' = { s with nodes := upd s.nodes n TcpNode.init,
                  base := upd s.base n (s.base n + (s.nodes n).ep.connCount),
                  backlog := upd s.backlog n [] } := by
  simp only [step] at h
  split at h
  · cases h; exact ⟨by assumption, rfl, rfl⟩
  · cases h

/-- Every program on its own since it was started last. -/
theorem living {tr : Trace} {s : State} (e : Exec (step own) init tr s) (n : Addr) :
    Exec TcpNode.step TcpNode.init (life n tr) (s.nodes n) := by
  induction e with
  | nil => exact .nil
  | @snoc tr1 s1 s2 act ob e1 hs ih =>
    unfold life at ih ⊢
    cases act with
    | net y z d =>
      obtain ⟨_, _, t, ht, rfl⟩ := step_net hs
      by_cases h : y = n
      · subst h
        rw [story_here]
        dsimp only
        rw [upd_same]
        exact .snoc ih ht
      · rw [story_there _ _ _ _ h]
        dsimp only
        rw [upd_ne _ _ (Ne.symm h)]
        exact ih
    | crash m =>
      obtain ⟨_, _, rfl⟩ := step_crash hs
      by_cases h : m = n
      · subst h
        rw [story_crash]
        dsimp only
        rw [upd_same]
        exact .nil
      · rw [story_other _ _ _ h]
        dsimp only
        rw [upd_ne _ _ (Ne.symm h)]
        exact ih

/-- Every life of a program is that of a program on its own. -/
theorem lived {tr : Trace} {s : State} (e : Exec (step own) init tr s) (n : Addr) :
    ∀ L ∈ lives n tr, ∃ t, Exec TcpNode.step TcpNode.init L t := by
  induction e with
  | nil =>
    intro L hL
    simp only [lives, story, List.foldl_nil, List.nil_append, List.mem_singleton] at hL
    subst hL
    exact ⟨_, .nil⟩
  | @snoc tr1 s1 s2 act ob e1 hs ih =>
    intro L hL
    have e2 := living (.snoc e1 hs) n
    rw [lives, List.mem_append, List.mem_singleton] at hL
    rcases hL with hL | rfl
    · cases act with
      | net y z d =>
        refine ih L (List.mem_append_left _ ?_)
        by_cases h : y = n
        · subst h
          rwa [story_here] at hL
        · rwa [story_there _ _ _ _ h] at hL
      | crash m =>
        by_cases h : m = n
        · subst h
          rw [story_crash] at hL
          exact ih L hL
        · rw [story_other _ _ _ h] at hL
          exact ih L (List.mem_append_left _ hL)
    · exact ⟨_, e2⟩

/-- The number of connections of a program in all its lives. -/
def State.count (s : State) (n : Addr) : Nat := s.base n + (s.nodes n).ep.connCount

/-- What a step of the program at `n` does. -/
inductive Eff (own : Addr → Bool) (s : State) (n : Addr) (x : TcpNode.Action) (o : TcpNode.Obs)
    (t : TcpNode.State) : (Addr → Nat → Option (Addr × Nat)) → (Addr → List (Addr × Nat)) →
      (Addr → Nat → Bytes) → Prop where
  | quiet (h1 : t.ep.connCount = (s.nodes n).ep.connCount)
      (h2 : ∀ c, (t.ep.conns c).addr = ((s.nodes n).ep.conns c).addr) (h3 : ∀ c, came x c = [])
      (h4 : ∀ c, wrote o c = []) : Eff own s n x o t s.peer s.backlog s.pipe
  | strange (a : Addr) (h1 : t.ep.connCount = (s.nodes n).ep.connCount + 1)
      (h2 : ∀ c, (t.ep.conns c).addr = if c = (s.nodes n).ep.connCount then a else ((s.nodes n).ep.conns c).addr)
      (h3 : ∀ c, came x c = []) (h4 : ∀ c, wrote o c = []) : Eff own s n x o t s.peer s.backlog s.pipe
  | connect (a : Addr) (h1 : t.ep.connCount = (s.nodes n).ep.connCount + 1)
      (h2 : ∀ c, (t.ep.conns c).addr = if c = (s.nodes n).ep.connCount then a else ((s.nodes n).ep.conns c).addr)
      (h3 : ∀ c, came x c = []) (h4 : ∀ c, wrote o c = []) :
      Eff own s n x o t s.peer (upd s.backlog a (s.backlog a ++ [(n, s.count n)])) s.pipe
  | link (a : Addr) (d : Nat) (h1 : t.ep.connCount = (s.nodes n).ep.connCount + 1)
      (h2 : ∀ c, (t.ep.conns c).addr = if c = (s.nodes n).ep.connCount then a else ((s.nodes n).ep.conns c).addr)
      (h3 : ∀ c, came x c = []) (h4 : ∀ c, wrote o c = []) (ha : own a = true)
      (hd : (a, d) ∈ s.backlog n ∨ a = n ∧ d = s.count n) :
      Eff own s n x o t (set (set s.peer n (s.count n) (some (a, d))) a d (some (n, s.count n)))
        (upd s.backlog n ((s.backlog n).filter (· ≠ (a, d)))) s.pipe
  | foreign (c : Nat) (b : Bytes) (h1 : t.ep.connCount = (s.nodes n).ep.connCount)
      (h2 : ∀ c, (t.ep.conns c).addr = ((s.nodes n).ep.conns c).addr) (hc : c < (s.nodes n).ep.connCount)
      (h3 : ∀ k, came x k = if k = c then b else []) (h4 : ∀ c, wrote o c = [])
      (hp : s.peer n (s.base n + c) = none) (ho : own ((s.nodes n).ep.conns c).addr = false) :
      Eff own s n x o t s.peer s.backlog s.pipe
  | arrive (c : Nat) (b : Bytes) (m : Addr) (e : Nat) (h1 : t.ep.connCount = (s.nodes n).ep.connCount)
      (h2 : ∀ c, (t.ep.conns c).addr = ((s.nodes n).ep.conns c).addr)
      (h3 : ∀ k, came x k = if k = c then b else []) (h4 : ∀ c, wrote o c = [])
      (hp : s.peer n (s.base n + c) = some (m, e)) (hb : b <+: s.pipe m e) :
      Eff own s n x o t s.peer s.backlog (set s.pipe m e ((s.pipe m e).drop b.length))
  | write (c : Nat) (b : Bytes) (h1 : t.ep.connCount = (s.nodes n).ep.connCount)
      (h2 : ∀ c, (t.ep.conns c).addr = ((s.nodes n).ep.conns c).addr) (h3 : ∀ k, came x k = [])
      (h4 : ∀ k, wrote o k = if k = c then b else []) (hc : ((s.nodes n).ep.conns c).out ≠ none) :
      Eff own s n x o t s.peer s.backlog (set s.pipe n (s.base n + c) (s.pipe n (s.base n + c) ++ b))

theorem carry_connect {s : State} {n : Addr} {d : Nat} {x : Ep.Action} {c : Nat}
    {a : Addr} (h : ¬ ∃ l b, x = .accept l b) :
    carry own s n d (.app x) ⟨some (x, .opened c a), none⟩ =
      if own a then
        if (s.backlog n).contains (a, d) || (a, d) == (n, s.base n + c) then link s n (s.base n + c) a d
        else { s with backlog := upd s.backlog a (s.backlog a ++ [(n, s.base n + c)]) }
      else s := by
  cases x with
  | accept l b => exact absurd ⟨l, b, rfl⟩ h
  | _ => rfl

theorem carry_quiet {s : State} {n : Addr} {d : Nat} {x : Ep.Action} {o : Ep.Obs}
    (h : ∀ c a, o ≠ .opened c a) : carry own s n d (.app x) ⟨some (x, o), none⟩ = s := by
  cases o with
  | opened c a => exact absurd rfl (h c a)
  | _ => cases x <;> rfl

theorem effect {s s' : State} {n : Addr} {x : TcpNode.Action} {d : Nat} {o : TcpNode.Obs}
    (h : step own s (.net n x d) = some (s', o)) : own n = true ∧ ∃ t, TcpNode.step (s.nodes n) x = some (t, o) ∧
      s'.nodes = upd s.nodes n t ∧ s'.base = s.base ∧ Eff own s n x o t s'.peer s'.backlog s'.pipe := by
  obtain ⟨hn, hp, t, ht, rfl⟩ := step_net h
  have hbase : (carry own s n d x o).base = s.base := by
    unfold carry link
    split <;> repeat' split
    all_goals rfl
  refine ⟨hn, t, ht, rfl, hbase, ?_⟩
  dsimp only
  have quiet : ∀ {y : TcpNode.State} {x : Ep.Action} {z : TcpNode.Action} {q : Ep.Obs},
      Ep.step false (s.nodes n).ep x = some (y.ep, q) → (∀ c a, q ≠ .opened c a) →
      y.ep.connCount = (s.nodes n).ep.connCount ∧
        ∀ c, (y.ep.conns c).addr = ((s.nodes n).ep.conns c).addr := by
    intro y x z q he hq
    rcases TcpNet.conns_kind (Ep.move_of_step he) with ⟨a, rfl, _⟩ | ⟨_, hc, hadr⟩
    · exact absurd rfl (hq _ _)
    · exact ⟨hc, hadr⟩
  cases TcpNode.move_of_step ht with
  | app x y o h1 h2 he =>
    rcases TcpNet.conns_kind (Ep.move_of_step he) with ⟨a, rfl, hc, hx, hadr⟩ | ⟨ho, hc, hadr⟩
    · by_cases hacc : ∃ l b, x = .accept l b
      · obtain ⟨l, b, rfl⟩ := hacc
        obtain rfl := hx l b rfl
        simp only [carry]
        simp only [possible, Bool.or_eq_true, Bool.not_eq_true', List.contains_iff_mem] at hp
        by_cases ho : own b = true
        · rw [if_pos ho]
          exact .link b d hc hadr (fun _ => rfl) (fun _ => rfl) ho (.inl (hp.resolve_left (by simp [ho])))
        · rw [if_neg ho]
          exact .strange b hc hadr (fun _ => rfl) (fun _ => rfl)
      · rw [carry_connect hacc]
        split
        · split
          · rename_i ho hl
            rw [Bool.or_eq_true, List.contains_iff_mem, beq_iff_eq, Prod.mk.injEq] at hl
            exact .link a d hc hadr (fun _ => rfl) (fun _ => rfl) ho hl
          · exact .connect a hc hadr (fun _ => rfl) (fun _ => rfl)
        · exact .strange a hc hadr (fun _ => rfl) (fun _ => rfl)
    · rw [carry_quiet ho]
      exact .quiet hc hadr (fun _ => rfl) (fun _ => rfl)
  | arrive c b hc h =>
    simp only [possible] at hp
    simp only [carry]
    have hk : ∀ k, came (.arrive c b) k = if k = c then b else [] := by
      intro k
      simp only [came]
      by_cases h : k = c
      · rw [if_pos h, if_pos h.symm]
      · rw [if_neg h, if_neg (Ne.symm h)]
    cases hq : s.peer n (s.base n + c) with
    | none =>
      rw [hq] at hp
      exact .foreign c b rfl (fun _ => rfl) hc hk (fun _ => rfl) hq (by simpa using hp)
    | some w =>
      obtain ⟨m, k⟩ := w
      rw [hq] at hp
      exact .arrive c b m k rfl (fun _ => rfl) hk (fun _ => rfl) hq (List.isPrefixOf_iff_prefix.mp hp)
  | shut c hc => exact .quiet rfl (fun _ => rfl) (fun _ => rfl) (fun _ => rfl)
  | wait c => exact .quiet rfl (fun _ => rfl) (fun _ => rfl) (fun _ => rfl)
  | broken c a y o ha he =>
    rcases TcpNet.conns_kind (Ep.move_of_step he) with ⟨a', rfl, hc, hx, hadr⟩ | ⟨ho, hc, hadr⟩
    · cases Ep.move_of_step he
    · exact .quiet hc hadr (fun _ => rfl) (fun _ => rfl)
  | read c k y o hp he =>
    rcases TcpNet.conns_kind (Ep.move_of_step he) with ⟨a', rfl, hc, hx, hadr⟩ | ⟨ho, hc, hadr⟩
    · cases Ep.move_of_step he
    · exact .quiet hc hadr (fun _ => rfl) (fun _ => rfl)
  | taken c a b w hb hw =>
    refine .write c w rfl (fun _ => rfl) (fun _ => rfl) (fun k => ?_) (by rw [hb]; nofun)
    simp [wrote, eq_comm]
  | done c a b w y o hb hw he =>
    rcases TcpNet.conns_kind (Ep.move_of_step he) with ⟨a', rfl, hc, hx, hadr⟩ | ⟨ho, hc, hadr⟩
    · cases Ep.move_of_step he
    · refine .write c w hc hadr (fun _ => rfl) (fun k => ?_) (by rw [hb]; nofun)
      simp [wrote, eq_comm]
  | failed c a b b' w y o hb hw he =>
    rcases TcpNet.conns_kind (Ep.move_of_step he) with ⟨a', rfl, hc, hx, hadr⟩ | ⟨ho, hc, hadr⟩
    · cases Ep.move_of_step he
    · refine .write c w hc hadr (fun _ => rfl) (fun k => ?_) (by rw [hb]; nofun)
      simp [wrote, eq_comm]

/-- Connections in all lives, with their addresses, what was written to them and what has arrived on them.
Those with numbers from `cc` on were made in the part `u` of the history. -/
structure Ghost (own : Addr → Bool) (cc : Addr → Nat) (u tr : Trace) (s : State) (ad : Addr → Nat → Addr)
    (W A : Addr → Nat → Bytes) : Prop where
  links : Links own s.count ad W A s.peer s.backlog s.pipe
  addr : ∀ n c, c < (s.nodes n).ep.connCount → ad n (s.base n + c) = ((s.nodes n).ep.conns c).addr
  wri : ∀ n c, W n (s.base n + c) = written c (life n tr)
  arr : ∀ n c, A n (s.base n + c) = arrived c (life n tr)
  past : ∀ n g, g < s.base n → ∃ L ∈ (story n tr).1, ∃ d, Shown (app L) (.opened d (ad n g)) ∧
    W n g = written d L ∧ (cc n ≤ g → Within n d L u)
  cur : ∀ n c, cc n ≤ s.base n + c → Within n c (life n tr) u
  tally : ∀ n, Tally (story n tr).1 (s.base n) (ad n) (W n) (A n)

theorem within_mono {n : Addr} {d : Nat} {L : Spec.TcpNode.Trace} {u : Trace} (h : Within n d L u)
    (v : Trace) : Within n d L (u ++ v) := by
  intro z q hz hq
  obtain ⟨y, k, w, h1, h2⟩ := h z q hz hq
  exact ⟨y, k, w, List.mem_append_left _ h1, h2⟩

theorem within_nil (n : Addr) (d : Nat) (u : Trace) : Within n d [] u :=
  fun _ _ h _ => absurd h List.not_mem_nil

theorem within_here {n : Addr} {c : Nat} {L : Spec.TcpNode.Trace} {u : Trace} (h : Within n c L u)
    (x : TcpNode.Action) (d : Nat) (o : TcpNode.Obs) :
    Within n c (L ++ [(x, o)]) (u ++ [(.net n x d, o)]) := by
  intro z q hz hq
  rw [TcpNode.app_snoc, List.mem_append] at hz
  rcases hz with hz | hz
  · exact within_mono h _ z q hz hq
  · exact ⟨x, d, o, by simp, by simpa using hz⟩

section
variable {cc : Addr → Nat} {u tr : Trace} {s s' : State} {ad ad' : Addr → Nat → Addr}
  {W W' A A' : Addr → Nat → Bytes} {n : Addr} {x : TcpNode.Action} {d : Nat} {o : TcpNode.Obs}
  {t : TcpNode.State}

theorem Ghost.next (h : Ghost own cc u tr s ad W A) (hn : s'.nodes = upd s.nodes n t)
    (hb : s'.base = s.base) {k : Addr → Nat} (hl : Links own k ad' W' A' s'.peer s'.backlog s'.pipe)
    (hk : k = upd s.count n (s.base n + t.ep.connCount))
    (had : ∀ c, c < t.ep.connCount → ad' n (s.base n + c) = (t.ep.conns c).addr)
    (hado : ∀ m g, m ≠ n ∨ g < s.base n → ad' m g = ad m g)
    (hW : ∀ c, W' n (s.base n + c) = W n (s.base n + c) ++ wrote o c)
    (hWo : ∀ m g, m ≠ n ∨ g < s.base n → W' m g = W m g)
    (hA : ∀ c, A' n (s.base n + c) = A n (s.base n + c) ++ came x c)
    (hAo : ∀ m g, m ≠ n ∨ g < s.base n → A' m g = A m g) :
    Ghost own cc (u ++ [(.net n x d, o)]) (tr ++ [(.net n x d, o)]) s' ad' W' A' := by
  have e1 : s'.count = k := by
    funext m
    rw [hk, State.count, hn, hb]
    by_cases h : m = n <;> simp [upd, h, State.count]
  refine ⟨by rw [e1]; exact hl, ?_, ?_, ?_, ?_, ?_, ?_⟩
  · intro m c hc
    rw [hb]
    by_cases hm : m = n
    · subst hm
      rw [hn, upd_same] at hc ⊢
      exact had c hc
    · rw [hn, upd_ne _ _ hm] at hc ⊢
      rw [hado _ _ (.inl hm)]
      exact h.addr m c hc
  · intro m c
    rw [hb]
    by_cases hm : m = n
    · subst hm
      rw [hW, h.wri, life, life, story_here, TcpNode.written_snoc]
      rfl
    · rw [hWo _ _ (.inl hm), h.wri, life, life, story_there _ _ _ _ (Ne.symm hm)]
  · intro m c
    rw [hb]
    by_cases hm : m = n
    · subst hm
      rw [hA, h.arr, life, life, story_here, TcpNode.arrived_snoc]
      rfl
    · rw [hAo _ _ (.inl hm), h.arr, life, life, story_there _ _ _ _ (Ne.symm hm)]
  · intro m g hg
    rw [hb] at hg
    have hm : m ≠ n ∨ g < s.base n := by
      by_cases hm : m = n
      · subst hm; exact .inr hg
      · exact .inl hm
    obtain ⟨L, h1, e, h2, h3, h4⟩ := h.past m g hg
    refine ⟨L, ?_, e, by rw [hado _ _ hm]; exact h2, by rw [hWo _ _ hm]; exact h3, fun hc => within_mono (h4 hc) _⟩
    by_cases hm : m = n
    · subst hm; rwa [story_here]
    · rwa [story_there _ _ _ _ (Ne.symm hm)]
  · intro m c hc
    rw [hb] at hc
    by_cases hm : m = n
    · subst hm
      rw [life, story_here]
      exact within_here (h.cur m c hc) _ _ _
    · rw [life, story_there _ _ _ _ (Ne.symm hm)]
      exact within_mono (h.cur m c hc) _
  · intro m
    rw [hb]
    by_cases hm : m = n
    · subst hm
      rw [story_here]
      exact (h.tally m).congr (fun g hg => hado _ _ (.inr hg)) (fun g hg => hWo _ _ (.inr hg))
        (fun g hg => hAo _ _ (.inr hg))
    · rw [story_there _ _ _ _ (Ne.symm hm)]
      exact (h.tally m).congr (fun g _ => hado _ _ (.inl hm)) (fun g _ => hWo _ _ (.inl hm))
        (fun g _ => hAo _ _ (.inl hm))

theorem set_same {α : Type} (f : Addr → Nat → α) (n : Addr) (b c e : Nat) (y : α) :
    set f n (b + c) y n (b + e) = if e = c then y else f n (b + e) := by
  rw [set_apply]
  by_cases h : e = c
  · rw [if_pos ⟨rfl, by rw [h]⟩, if_pos h]
  · rw [if_neg (fun h' => h (by omega)), if_neg h]

theorem set_away {α : Type} (f : Addr → Nat → α) (n m : Addr) (b c g : Nat) (y : α)
    (h : m ≠ n ∨ g < b) : set f n (b + c) y m g = f m g := by
  rw [set_apply, if_neg]
  rintro ⟨h1, h2⟩
  rcases h with h | h
  · exact h h1
  · omega

theorem Ghost.step (h : Ghost own cc u tr s ad W A)
    (hs : TcpCrash.step own s (.net n x d) = some (s', o)) :
    ∃ ad W A, Ghost own cc (u ++ [(.net n x d, o)]) (tr ++ [(.net n x d, o)]) s' ad W A := by
  obtain ⟨hn, t, ht, hnodes, hbase, he⟩ := effect hs
  have same : t.ep.connCount = (s.nodes n).ep.connCount →
      s.count = upd s.count n (s.base n + t.ep.connCount) := by
    intro h1
    exact TcpNet.upd_id _ _ _ (by rw [State.count, h1])
  have more : t.ep.connCount = (s.nodes n).ep.connCount + 1 →
      upd s.count n (s.count n + 1) = upd s.count n (s.base n + t.ep.connCount) := by
    intro h1
    rw [State.count, h1]
    rfl
  have had : ∀ a, t.ep.connCount = (s.nodes n).ep.connCount + 1 →
      (∀ c, (t.ep.conns c).addr =
        if c = (s.nodes n).ep.connCount then a else ((s.nodes n).ep.conns c).addr) →
      ∀ c, c < t.ep.connCount → set ad n (s.count n) a n (s.base n + c) = (t.ep.conns c).addr := by
    intro a h1 h2 c hc
    rw [State.count, set_same, h2]
    split
    · rfl
    · exact h.addr n c (by omega)
  generalize hp : s'.peer = p at he
  generalize hq : s'.backlog = q at he
  generalize hr : s'.pipe = r at he
  cases he with
  | quiet h1 h2 h3 h4 =>
    exact ⟨ad, W, A, h.next hnodes hbase (by rw [hp, hq, hr]; exact h.links) (same h1)
      (fun c hc => by rw [h2]; exact h.addr n c (by omega)) (fun _ _ _ => rfl) (fun c => by rw [h4]; simp)
      (fun _ _ _ => rfl) (fun c => by rw [h3]; simp) (fun _ _ _ => rfl)⟩
  | strange a h1 h2 h3 h4 =>
    exact ⟨_, W, A, h.next hnodes hbase (by rw [hp, hq, hr]; exact h.links.opens n a) (more h1)
      (had a h1 h2) (fun m g hm => set_away _ _ _ _ _ _ _ hm) (fun c => by rw [h4]; simp)
      (fun _ _ _ => rfl) (fun c => by rw [h3]; simp) (fun _ _ _ => rfl)⟩
  | connect a h1 h2 h3 h4 =>
    exact ⟨_, W, A, h.next hnodes hbase (by rw [hp, hq, hr]; exact h.links.connects n a) (more h1)
      (had a h1 h2) (fun m g hm => set_away _ _ _ _ _ _ _ hm) (fun c => by rw [h4]; simp)
      (fun _ _ _ => rfl) (fun c => by rw [h3]; simp) (fun _ _ _ => rfl)⟩
  | link a e h1 h2 h3 h4 ha hd =>
    refine ⟨set ad n (s.count n) a, W, A, h.next hnodes hbase ?_ (more h1)
      (had a h1 h2) (fun m g hm => set_away _ _ _ _ _ _ _ hm) (fun c => by rw [h4]; simp)
      (fun _ _ _ => rfl) (fun c => by rw [h3]; simp) (fun _ _ _ => rfl)⟩
    rw [hp, hq, hr]
    rcases hd with hd | ⟨rfl, rfl⟩
    · exact h.links.accepts hn ha hd
    · exact h.links.itself hn
  | foreign c b h1 h2 hc h3 h4 hpn ho =>
    exact ⟨ad, W, _, h.next hnodes hbase (by
        rw [hp, hq, hr]
        exact h.links.strange b (Nat.add_lt_add_left hc _) hpn (by rw [h.addr n c hc]; exact ho)) (same h1)
      (fun c hc => by rw [h2]; exact h.addr n c (by omega)) (fun _ _ _ => rfl) (fun c => by rw [h4]; simp)
      (fun _ _ _ => rfl) (fun k => by rw [set_same, h3]; by_cases hk : k = c <;> simp [hk])
      (fun m g hm => set_away _ _ _ _ _ _ _ hm)⟩
  | arrive c b m e h1 h2 h3 h4 hpn hb =>
    exact ⟨ad, W, _, h.next hnodes hbase (by rw [hp, hq, hr]; exact h.links.arrives hpn hb) (same h1)
      (fun c hc => by rw [h2]; exact h.addr n c (by omega)) (fun _ _ _ => rfl) (fun c => by rw [h4]; simp)
      (fun _ _ _ => rfl) (fun k => by rw [set_same, h3]; by_cases hk : k = c <;> simp [hk])
      (fun m g hm => set_away _ _ _ _ _ _ _ hm)⟩
  | write c b h1 h2 h3 h4 hc =>
    exact ⟨ad, _, A, h.next hnodes hbase (by rw [hp, hq, hr]; exact h.links.writes n (s.base n + c) b) (same h1)
      (fun c hc => by rw [h2]; exact h.addr n c (by omega)) (fun _ _ _ => rfl)
      (fun k => by rw [set_same, h4]; by_cases hk : k = c <;> simp [hk])
      (fun m g hm => set_away _ _ _ _ _ _ _ hm) (fun c => by rw [h3]; simp) (fun _ _ _ => rfl)⟩

theorem Ghost.crash (h : Ghost own cc u tr s ad W A)
    (e : Exec TcpNode.step TcpNode.init (life n tr) (s.nodes n))
    (hs : TcpCrash.step own s (.crash n) = some (s', o)) :
    Ghost own cc (u ++ [(.crash n, o)]) (tr ++ [(.crash n, o)]) s' ad W A := by
  obtain ⟨hn, rfl, rfl⟩ := step_crash hs
  have hl : ∀ m, m ≠ n → ∀ L, L = life m tr →
      L = life m (tr ++ [(.crash n, (⟨none, none⟩ : TcpNode.Obs))]) := by
    intro m hm L hL
    rw [hL, life, life, story_other _ _ _ (Ne.symm hm)]
  have e0 : ∀ c, c ≥ (s.nodes n).ep.connCount → written c (life n tr) = [] ∧ arrived c (life n tr) = [] := by
    intro c hc
    refine ⟨(TcpNode.streams e).new c hc, ?_⟩
    rw [← h.arr]
    exact h.links.fresh n _ (Nat.add_le_add_left hc _)
  refine ⟨?_, ?_, ?_, ?_, ?_, ?_, ?_⟩
  · have e1 : State.count
        { s with nodes := upd s.nodes n TcpNode.init,
                 base := upd s.base n (s.base n + (s.nodes n).ep.connCount),
                 backlog := upd s.backlog n [] } = s.count := by
      funext m
      by_cases hm : m = n <;> simp [State.count, upd, hm, TcpNode.init, Ep.init]
    rw [e1]
    obtain ⟨h1, h2, h3, h4, h5, h6, h0⟩ := h.links
    refine ⟨h1, h2, ?_, h4, h5, h6, h0⟩
    intro n' m' d' hm
    dsimp only at hm
    by_cases hx : n' = n
    · subst hx; rw [upd_same] at hm; cases hm
    · rw [upd_ne _ _ hx] at hm; exact h3 _ _ _ hm
  · intro m c hc
    dsimp only at hc ⊢
    by_cases hm : m = n
    · subst hm; rw [upd_same] at hc; cases hc
    · rw [upd_ne _ _ hm] at hc ⊢
      rw [upd_ne _ _ hm]
      exact h.addr m c hc
  · intro m c
    dsimp only
    by_cases hm : m = n
    · subst hm
      rw [upd_same, life, story_crash, Nat.add_assoc, h.wri, (e0 _ (Nat.le_add_right _ _)).1]
      rfl
    · rw [upd_ne _ _ hm, ← hl m hm _ rfl, h.wri]
  · intro m c
    dsimp only
    by_cases hm : m = n
    · subst hm
      rw [upd_same, life, story_crash, Nat.add_assoc, h.arr, (e0 _ (Nat.le_add_right _ _)).2]
      rfl
    · rw [upd_ne _ _ hm, ← hl m hm _ rfl, h.arr]
  · intro m g hg
    dsimp only at hg
    by_cases hm : m = n
    · subst hm
      rw [upd_same] at hg
      rw [story_crash]
      by_cases hg' : g < s.base m
      · obtain ⟨L, h1, k, h2, h3, h4⟩ := h.past m g hg'
        exact ⟨L, List.mem_append_left _ h1, k, h2, h3, fun hc => within_mono (h4 hc) _⟩
      · have hk : s.base m + (g - s.base m) = g := by omega
        have hc : g - s.base m < (s.nodes m).ep.connCount := by omega
        refine ⟨life m tr, List.mem_append_right _ (List.mem_singleton.mpr rfl), g - s.base m, ?_, ?_, ?_⟩
        · rw [← hk, Nat.add_sub_cancel_left, h.addr m _ hc]
          exact (Ep.good_hist (TcpNode.part e)).2.conns _ hc
        · rw [← h.wri, hk]
        · intro hcc
          exact within_mono (h.cur m _ (by rw [hk]; exact hcc)) _
    · rw [upd_ne _ _ hm] at hg
      obtain ⟨L, h1, k, h2, h3, h4⟩ := h.past m g hg
      exact ⟨L, by rwa [story_other _ _ _ (Ne.symm hm)], k, h2, h3, fun hc => within_mono (h4 hc) _⟩
  · intro m c hc
    dsimp only at hc
    by_cases hm : m = n
    · subst hm
      rw [life, story_crash]
      exact within_nil _ _ _
    · rw [upd_ne _ _ hm] at hc
      rw [← hl m hm _ rfl]
      exact within_mono (h.cur m c hc) _
  · intro m
    dsimp only
    by_cases hm : m = n
    · subst hm
      rw [upd_same, story_crash]
      exact (h.tally m).snoc e (h.addr m) (h.wri m) (h.arr m)
    · rw [upd_ne _ _ hm, story_other _ _ _ (Ne.symm hm)]
      exact h.tally m

/-- From the point where `cc` is the number of connections, those with greater numbers are new. -/
theorem Ghost.reset (h : Ghost own cc u tr s ad W A)
    (e : ∀ n, Exec TcpNode.step TcpNode.init (life n tr) (s.nodes n)) :
    Ghost own s.count [] tr s ad W A := by
  refine ⟨h.links, h.addr, h.wri, h.arr, ?_, ?_, h.tally⟩
  · intro n g hg
    obtain ⟨L, h1, k, h2, h3, _⟩ := h.past n g hg
    refine ⟨L, h1, k, h2, h3, fun hc => ?_⟩
    rw [State.count] at hc
    omega
  · intro n c hc z q hz hq
    have h1 : (s.nodes n).ep.connCount ≤ c := by rw [State.count] at hc; omega
    rcases hq with ⟨a, rfl⟩ | ⟨m, rfl⟩
    · exact absurd (Ep.opened_addr (TcpNode.part (e n)) ⟨z, hz⟩).1 (Nat.not_lt.mpr h1)
    have h2 := (Ep.wire (TcpNode.part (e n))).new c h1
    have h3 : m ∈ Spec.Ep.accepted c (app (life n tr)) := by
      simp only [Spec.Ep.accepted, List.mem_filterMap]
      exact ⟨_, hz, by simp⟩
    rw [h2.2] at h3
    cases h3

end

theorem ghost_from {cc : Addr → Nat} {t u v : Trace} {s₀ s : State} {ad : Addr → Nat → Addr}
    {W A : Addr → Nat → Bytes} (e₀ : Exec (step own) init t s₀) (h : Ghost own cc u t s₀ ad W A)
    (e : Exec (step own) s₀ v s) : ∃ ad W A, Ghost own cc (u ++ v) (t ++ v) s ad W A := by
  induction e with
  | nil => exact ⟨ad, W, A, by simpa using h⟩
  | @snoc v1 s1 s2 act ob e1 hs ih =>
    obtain ⟨ad, W, A, ih⟩ := ih
    rw [← List.append_assoc, ← List.append_assoc]
    cases act with
    | net n x d => exact ih.step hs
    | crash n => exact ⟨ad, W, A, ih.crash (living (e₀.append e1) n) hs⟩

theorem ghost {tr : Trace} {s : State} (e : Exec (step own) init tr s) :
    ∃ ad W A, Ghost own (fun _ => 0) tr tr s ad W A := by
  have h : Ghost own (fun _ => 0) [] [] init (fun _ _ => 0) (fun _ _ => []) (fun _ _ => []) :=
    ⟨⟨nofun, nofun, nofun, fun n c => rfl, fun n c h => absurd h (Nat.not_lt_zero c), fun n c _ => rfl, nofun⟩,
      nofun, fun _ _ => rfl, fun _ _ => rfl, nofun, fun _ _ _ => within_nil _ _ _, fun _ => .nil _ _ _⟩
  have := ghost_from .nil h e
  rwa [List.nil_append] at this

/-- The connections of all lives. -/
theorem Ghost.all {cc : Addr → Nat} {u tr : Trace} {s : State} {ad : Addr → Nat → Addr}
    {W A : Addr → Nat → Bytes} (h : Ghost own cc u tr s ad W A) (e : Exec (TcpCrash.step own) init tr s)
    (n : Addr) :
    Tally (lives n tr) (s.count n) (ad n) (W n) (A n) :=
  (h.tally n).snoc (living e n) (h.addr n) (h.wri n) (h.arr n)

/-! ### What a program that was started again is connected to -/

/-- The connections of the program at `n` are to connections with numbers from `cc` on. -/
structure New (cc : Addr → Nat) (n : Addr) (s : State) : Prop where
  wait : ∀ m g, (m, g) ∈ s.backlog n → cc m ≤ g
  peer : ∀ c m g, s.peer n (s.base n + c) = some (m, g) → cc m ≤ g
  count : ∀ m, cc m ≤ s.count m

theorem New.step {cc : Addr → Nat} {n m : Addr} {s s' : State} {x : TcpNode.Action} {d : Nat}
    {o : TcpNode.Obs} (h : New cc n s) (hs : TcpCrash.step own s (.net m x d) = some (s', o)) :
    New cc n s' := by
  obtain ⟨hn, t, ht, hnodes, hbase, he⟩ := effect hs
  have hc : (s.nodes m).ep.connCount ≤ t.ep.connCount → ∀ k, cc k ≤ s'.count k := by
    intro h1 k
    refine Nat.le_trans (h.count k) ?_
    rw [State.count, State.count, hbase, hnodes]
    by_cases hk : k = m
    · subst hk; rw [upd_same]; omega
    · rw [upd_ne _ _ hk]
  have h0 := h.count
  obtain ⟨h1, h2, _⟩ := h
  generalize hp : s'.peer = p at he
  generalize hq : s'.backlog = q at he
  generalize s'.pipe = r at he
  cases he with
  | connect a h3 _ _ _ =>
    refine ⟨?_, by rw [hp, hbase]; exact h2, hc (by omega)⟩
    rw [hq]
    intro k g hk
    by_cases hx : n = a
    · subst hx
      rw [upd_same, List.mem_append, List.mem_singleton] at hk
      rcases hk with hk | hk
      · exact h1 k g hk
      · cases hk; exact h0 m
    · rw [upd_ne _ _ hx] at hk; exact h1 k g hk
  | link a e h3 _ _ _ _ hd =>
    refine ⟨?_, ?_, hc (by omega)⟩
    · rw [hq]
      intro k g hk
      by_cases hx : n = m
      · subst hx
        rw [upd_same] at hk
        exact h1 k g ((List.mem_filter.mp hk).1)
      · rw [upd_ne _ _ hx] at hk; exact h1 k g hk
    · rw [hp, hbase]
      intro c k g hk
      rw [set_apply, set_apply] at hk
      split at hk
      · cases hk; exact h0 m
      · split at hk
        · rename_i hx
          cases hk
          rcases hd with hd | ⟨rfl, rfl⟩
          · obtain ⟨rfl, _⟩ := hx; exact h1 _ _ hd
          · exact h0 a
        · exact h2 c k g hk
  | _ => exact ⟨by rw [hq]; exact h1, by rw [hp, hbase]; exact h2, hc (by omega)⟩

theorem New.other {cc : Addr → Nat} {n m : Addr} {s s' : State} {o : TcpNode.Obs} (h : New cc n s)
    (hm : m ≠ n) (hs : TcpCrash.step own s (.crash m) = some (s', o)) : New cc n s' := by
  obtain ⟨_, rfl, rfl⟩ := step_crash hs
  obtain ⟨h1, h2, h3⟩ := h
  refine ⟨?_, ?_, ?_⟩
  · dsimp only; rw [upd_ne _ _ (Ne.symm hm)]; exact h1
  · dsimp only; rw [upd_ne _ _ (Ne.symm hm)]; exact h2
  · intro k
    refine Nat.le_trans (h3 k) ?_
    by_cases hk : k = m <;> simp [State.count, upd, hk]

theorem new_from {cc : Addr → Nat} {n : Addr} {v : Trace} {s₀ s : State} (h : New cc n s₀)
    (e : Exec (step own) s₀ v s) (hv : ∀ o, (.crash n, o) ∉ v) : New cc n s := by
  induction e with
  | nil => exact h
  | @snoc v1 s1 s2 act ob e1 hs ih =>
    have ih := ih fun o ho => hv o (List.mem_append_left _ ho)
    cases act with
    | net m x d => exact ih.step hs
    | crash m =>
      refine ih.other (fun hm => ?_) hs
      subst hm
      exact hv ob (List.mem_append_right _ (List.mem_singleton.mpr rfl))

theorem new_crash {cc : Addr → Nat} {u tr : Trace} {n : Addr} {s s' : State} {o : TcpNode.Obs}
    {ad : Addr → Nat → Addr} {W A : Addr → Nat → Bytes} (h : Ghost own cc u tr s ad W A)
    (hs : step own s (.crash n) = some (s', o)) : New s'.count n s' := by
  obtain ⟨_, rfl, rfl⟩ := step_crash hs
  refine ⟨?_, ?_, fun _ => Nat.le_refl _⟩
  · dsimp only; rw [upd_same]; nofun
  · dsimp only; rw [upd_same]
    intro c m g hp
    have := (h.links.addr _ _ _ _ hp).1
    rw [State.count] at this
    omega

/-- What has arrived on a connection of a program to another one is the beginning of what was written on a
connection in one of the lives of that one. -/
theorem source {cc : Addr → Nat} {u tr : Trace} {s : State} {ad : Addr → Nat → Addr}
    {W A : Addr → Nat → Bytes} (e : Exec (step own) init tr s) (h : Ghost own cc u tr s ad W A)
    {n a : Addr} {c : Nat} (hn : New cc n s) (ha : own a = true)
    (ho : Shown (app (life n tr)) (.opened c a)) : arrived c (life n tr) = [] ∨
    ∃ L ∈ lives a tr, ∃ d, Shown (app L) (.opened d n) ∧ arrived c (life n tr) <+: written d L ∧
      Within a d L u := by
  obtain ⟨h1, h2⟩ := Ep.opened_addr (TcpNode.part (living e n)) ho
  have h3 := h.addr n c h1
  cases hp : s.peer n (s.base n + c) with
  | none =>
    left
    rw [← h.arr]
    exact h.links.none n _ (Nat.add_lt_add_left h1 _) hp (by rw [h3, h2]; exact ha)
  | some w =>
    obtain ⟨m, g⟩ := w
    right
    have h4 := h.links.addr _ _ _ _ hp
    rw [h3, h2] at h4
    obtain ⟨-, rfl⟩ := h4
    have h5 := h.links.symm _ _ _ _ hp
    obtain ⟨h6, h7⟩ := h.links.addr _ _ _ _ h5
    have h8 : A n (s.base n + c) <+: W a g := by
      rw [h.links.pipe a g, h5]
      exact List.prefix_append _ _
    rw [h.arr] at h8
    have h9 := hn.peer c a g hp
    by_cases hg : g < s.base a
    · obtain ⟨L, g1, d, g2, g3, g4⟩ := h.past a g hg
      exact ⟨L, past_mem g1, d, h7 ▸ g2, g3 ▸ h8, g4 h9⟩
    · have hk : s.base a + (g - s.base a) = g := by omega
      have hc : g - s.base a < (s.nodes a).ep.connCount := by rw [State.count] at h6; omega
      refine ⟨life a tr, life_mem a tr, g - s.base a, ?_, ?_, h.cur a _ (by omega)⟩
      · have := (Ep.good_hist (TcpNode.part (living e a))).2.conns _ hc
        rwa [← h.addr a _ hc, hk, h7] at this
      · rw [← h.wri, hk]; exact h8

end Rsomeip.Rt.TcpCrash
