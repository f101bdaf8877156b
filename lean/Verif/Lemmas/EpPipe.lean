import Verif.Lemmas.EpSeq

/-! # What goes into a channel comes out of it -/

namespace Rsomeip.Rt.Ep

open Someip (InterfaceId)
open Spec Spec.Ep

theorem routedTo_snoc (i : Nat) (tr : Trace) (a : Action) (o : Obs) :
    routedTo i (tr ++ [(a, o)]) = routedTo i tr ++
      (match o with
      | .routed j m b => if j = i then [(m, b)] else []
      | _ => []) := by
  rw [routedTo, List.filterMap_append]
  congr 1
  simp only [List.filterMap_cons, List.filterMap_nil]
  cases o <;> first | rfl | (dsimp only; split <;> simp_all)

theorem stubGot_snoc (k : Nat) (tr : Trace) (a : Action) (o : Obs) :
    stubGot k (tr ++ [(a, o)]) = stubGot k tr ++
      (match a, o with
      | .stubRecv j, .message m b => if j = k then [(m, b)] else []
      | _, _ => []) := by
  rw [stubGot, List.filterMap_append]
  congr 1
  simp only [List.filterMap_cons, List.filterMap_nil]
  cases a <;> cases o <;> first | rfl | (dsimp only; split <;> simp_all)

theorem proxyGot_snoc (p : Nat) (tr : Trace) (a : Action) (o : Obs) :
    proxyGot p (tr ++ [(a, o)]) = proxyGot p tr ++
      (match a, o with
      | .proxyRecv j, .reply m => if j = p then [m] else []
      | _, _ => []) := by
  rw [proxyGot, List.filterMap_append]
  congr 1
  simp only [List.filterMap_cons, List.filterMap_nil]
  cases a <;> cases o <;> first | rfl | (dsimp only; split <;> simp_all)

/-- What proxy `p`, whose remote is `r`, took from its channel, in order. -/
def took (p : Nat) (r : Addr) (tr : Trace) : List (Msg × Addr) :=
  tr.filterMap fun e => match e with
    | (.proxyRecv j, .reply m) => if j = p then some (m, r) else none
    | (.proxyRecv j, .skipped m a) => if j = p then some (m, a) else none
    | _ => none

theorem took_snoc (p : Nat) (r : Addr) (tr : Trace) (a : Action) (o : Obs) :
    took p r (tr ++ [(a, o)]) = took p r tr ++
      (match a, o with
      | .proxyRecv j, .reply m => if j = p then [(m, r)] else []
      | .proxyRecv j, .skipped m b => if j = p then [(m, b)] else []
      | _, _ => []) := by
  rw [took, List.filterMap_append]
  congr 1
  simp only [List.filterMap_cons, List.filterMap_nil]
  cases a <;> cases o <;> first | rfl | (dsimp only; split <;> simp_all)

/-- Channels are first in, first out. -/
structure Pipe (tr : Trace) (s : State) : Prop where
  chan : ∀ i, s.ifCount ≤ i → routedTo i tr = []
  noStub : ∀ k, s.stubCount ≤ k → stubGot k tr = []
  noProxy : ∀ p r, s.proxyCount ≤ p → took p r tr = []
  task : ∀ i, s.pc.holds i = true → (s.ifaces i).queue = routedTo i tr
  stub : ∀ k, (s.stubs k).alive = true →
    stubGot k tr ++ (s.ifaces (s.stubs k).iface).queue = routedTo (s.stubs k).iface tr
  proxy : ∀ p, (s.proxies p).alive = true →
    took p (s.proxies p).remote tr ++ (s.ifaces (s.proxies p).iface).queue =
      routedTo (s.proxies p).iface tr
  stubPrefix : ∀ k, stubGot k tr <+: routedTo (s.stubs k).iface tr
  proxyPrefix : ∀ p, took p (s.proxies p).remote tr <+: routedTo (s.proxies p).iface tr

theorem Pipe.init : Pipe [] init := by
  constructor <;> simp [Ep.init, routedTo, stubGot, took, EpPc.holds]

section
variable {dg : Bool} {s s' : State} {a : Action} {o : Obs} {tr : Trace}

/-- Different readers have different channels. -/
structure Apart (s : State) : Prop where
  stubs : ∀ k k', (s.stubs k).alive = true → (s.stubs k').alive = true →
    (s.stubs k).iface = (s.stubs k').iface → k = k'
  proxies : ∀ p p', (s.proxies p).alive = true → (s.proxies p').alive = true →
    (s.proxies p).iface = (s.proxies p').iface → p = p'
  both : ∀ k p, (s.stubs k).alive = true → (s.proxies p).alive = true →
    (s.stubs k).iface ≠ (s.proxies p).iface
  stubTask : ∀ k, (s.stubs k).alive = true → s.pc.holds (s.stubs k).iface = false
  proxyTask : ∀ p, (s.proxies p).alive = true → s.pc.holds (s.proxies p).iface = false
  rx : ∀ i, s.pc.holds i = true → i < s.ifCount ∧ (s.ifaces i).rx = true
  stub : ∀ k, (s.stubs k).alive = true →
    (s.stubs k).iface < s.ifCount ∧ (s.ifaces (s.stubs k).iface).rx = true
  proxy : ∀ p, (s.proxies p).alive = true →
    (s.proxies p).iface < s.ifCount ∧ (s.ifaces (s.proxies p).iface).rx = true

theorem apart (h : Readers s) : Apart s where
  stubs k k' hk hk' he := by
    have := h.one (.stub k) (.stub k') _ ⟨hk, he⟩ ⟨hk', rfl⟩
    cases this; rfl
  proxies k k' hk hk' he := by
    have := h.one (.proxy k) (.proxy k') _ ⟨hk, he⟩ ⟨hk', rfl⟩
    cases this; rfl
  both k p hk hp he := by
    have := h.one (.stub k) (.proxy p) _ ⟨hk, he⟩ ⟨hp, rfl⟩
    cases this
  stubTask k hk := by
    cases ht : s.pc.holds (s.stubs k).iface with
    | false => rfl
    | true => exact nomatch (h.one (.stub k) .task _ ⟨hk, rfl⟩ ht)
  proxyTask p hp := by
    cases ht : s.pc.holds (s.proxies p).iface with
    | false => rfl
    | true => exact nomatch (h.one (.proxy p) .task _ ⟨hp, rfl⟩ ht)
  rx i hi := h.rx .task i hi
  stub k hk := h.rx (.stub k) _ ⟨hk, rfl⟩
  proxy p hp := h.rx (.proxy p) _ ⟨hp, rfl⟩

theorem Pipe.step_chan (h : Pipe tr s) (hf : Fresh s) (m : Move dg s a o s') (i : Nat)
    (hi : s'.ifCount ≤ i) : routedTo i (tr ++ [(a, o)]) = [] := by
  have h1 := h.chan i (Nat.le_trans m.ifCount hi)
  have h2 := hf.ifaces i (Nat.le_trans m.ifCount hi)
  clear hi h
  rw [routedTo_snoc, h1, List.nil_append]
  cases m <;> first | rfl | grind

theorem Pipe.step_noStub (h : Pipe tr s) (hf : Fresh s) (m : Move dg s a o s') (k : Nat)
    (hk : s'.stubCount ≤ k) : stubGot k (tr ++ [(a, o)]) = [] := by
  have hle : s.stubCount ≤ s'.stubCount := by cases m <;> simp
  have h1 := h.noStub k (Nat.le_trans hle hk)
  have h2 := hf.stubs k (Nat.le_trans hle hk)
  clear hk h
  rw [stubGot_snoc, h1, List.nil_append]
  cases m <;> first | rfl | grind

theorem Pipe.step_noProxy (h : Pipe tr s) (hf : Fresh s) (m : Move dg s a o s') (p : Nat) (r : Addr)
    (hp : s'.proxyCount ≤ p) : took p r (tr ++ [(a, o)]) = [] := by
  have hle : s.proxyCount ≤ s'.proxyCount := by cases m <;> simp
  have h1 := h.noProxy p r (Nat.le_trans hle hp)
  have h2 := hf.proxies p (Nat.le_trans hle hp)
  clear hp h
  rw [took_snoc, h1, List.nil_append]
  cases m <;> first | rfl | grind

theorem Pipe.step_task (h : Pipe tr s) (hf : Fresh s) (hr : Apart s) (m : Move dg s a o s') (i : Nat)
    (hi : s'.pc.holds i = true) : (s'.ifaces i).queue = routedTo i (tr ++ [(a, o)]) := by
  have h1 := h.task i
  have h2 := h.chan
  have h3 := hr.stubTask
  have h4 := hr.proxyTask
  clear h hr
  rw [routedTo_snoc]
  cases m <;> first | exact (h1 hi).trans (List.append_nil _).symm |
    grind [upd, EpPc.holds, Iface.drop]

theorem Pipe.step_stub (h : Pipe tr s) (hr : Apart s) (m : Move dg s a o s') (k : Nat)
    (hk : (s'.stubs k).alive = true) :
    stubGot k (tr ++ [(a, o)]) ++ (s'.ifaces (s'.stubs k).iface).queue =
      routedTo (s'.stubs k).iface (tr ++ [(a, o)]) := by
  have h1 := h.stub k
  have h2 := h.chan
  have h3 := h.noStub
  have h4 := h.task
  have h5 := hr.stubs
  have h6 := hr.both
  have h7 := hr.stubTask k
  have h8 := hr.stub k
  have h9 := answer_cases s
  have h10 := refuse_cases s
  clear h hr
  rw [routedTo_snoc, stubGot_snoc]
  cases m <;> first | (simp only [List.append_nil]; exact h1 hk) |
    (simp only [List.append_nil]; grind [upd, EpPc.holds, Iface.drop, stubAt_apply])

theorem Pipe.step_proxy (h : Pipe tr s) (hr : Apart s) (m : Move dg s a o s') (p : Nat)
    (hp : (s'.proxies p).alive = true) :
    took p (s'.proxies p).remote (tr ++ [(a, o)]) ++ (s'.ifaces (s'.proxies p).iface).queue =
      routedTo (s'.proxies p).iface (tr ++ [(a, o)]) := by
  have h1 := h.proxy p
  have h2 := h.chan
  have h3 := h.noProxy
  have h4 := h.task
  have h5 := hr.proxies
  have h6 := hr.both
  have h7 := hr.proxyTask p
  have h8 := hr.proxy p
  clear h hr
  rw [routedTo_snoc, took_snoc]
  cases m
  case proxyRecv q x b l ha hq =>
    dsimp only at hp ⊢
    by_cases hb : (s.proxies q).remote = b
    · rw [if_pos hb]
      grind [upd]
    · rw [if_neg hb]
      grind [upd]
  all_goals first | (simp only [List.append_nil]; exact h1 hp) |
    (simp only [List.append_nil]; grind [upd, EpPc.holds, Iface.drop])

theorem Pipe.step_stubPrefix (h : Pipe tr s) (hr : Apart s) (m : Move dg s a o s') (k : Nat) :
    stubGot k (tr ++ [(a, o)]) <+: routedTo (s'.stubs k).iface (tr ++ [(a, o)]) := by
  cases hk : (s'.stubs k).alive with
  | true => exact ⟨_, h.step_stub hr m k hk⟩
  | false =>
    have h1 := h.stubPrefix k
    suffices hs : stubGot k (tr ++ [(a, o)]) = stubGot k tr ∧
        (s'.stubs k).iface = (s.stubs k).iface by
      rw [hs.1, hs.2, routedTo_snoc]
      exact h1.trans (List.prefix_append ..)
    have h9 := answer_cases s
    have h10 := refuse_cases s
    clear h hr
    rw [stubGot_snoc]
    cases m <;> first | exact ⟨List.append_nil _, rfl⟩ |
      (simp only [List.append_nil]; grind [upd, stubAt_apply])

theorem Pipe.step_proxyPrefix (h : Pipe tr s) (hr : Apart s) (m : Move dg s a o s') (p : Nat) :
    took p (s'.proxies p).remote (tr ++ [(a, o)]) <+:
      routedTo (s'.proxies p).iface (tr ++ [(a, o)]) := by
  cases hp : (s'.proxies p).alive with
  | true => exact ⟨_, h.step_proxy hr m p hp⟩
  | false =>
    have h1 := h.proxyPrefix p
    suffices hs : took p (s'.proxies p).remote (tr ++ [(a, o)]) = took p (s.proxies p).remote tr ∧
        (s'.proxies p).iface = (s.proxies p).iface by
      rw [hs.1, hs.2, routedTo_snoc]
      exact h1.trans (List.prefix_append ..)
    clear h hr
    rw [took_snoc]
    cases m
    case proxyRecv q x b l ha hq =>
      dsimp only at hp ⊢
      have hne : q ≠ p := by rintro rfl; rw [hp] at ha; cases ha
      split <;> simp_all
    all_goals first | exact ⟨List.append_nil _, rfl⟩ |
      (simp only [List.append_nil]; grind [upd])

theorem Pipe.step (h : Pipe tr s) (hg : Good s) (m : Move dg s a o s') : Pipe (tr ++ [(a, o)]) s' :=
  have hr := apart hg.readers
  ⟨h.step_chan hg.fresh m, h.step_noStub hg.fresh m, h.step_noProxy hg.fresh m,
    h.step_task hg.fresh hr m, h.step_stub hr m, h.step_proxy hr m, h.step_stubPrefix hr m,
    h.step_proxyPrefix hr m⟩

end

theorem pipe {dg : Bool} {s : State} {tr : Trace} (e : Exec (step dg) init tr s) : Pipe tr s := by
  induction e with
  | nil => exact .init
  | snoc e hs ih => exact ih.step (good_hist e).1 (move_of_step hs)

theorem line {dg : Bool} {s : State} {tr : Trace} (e : Exec (step dg) init tr s) : Line tr s := by
  induction e with
  | nil => exact .init
  | snoc e hs ih =>
    exact ih.step (good_hist e).1.fresh (good_hist e).1.ended (move_of_step hs)

/-- What a proxy returns is what it took and came from its remote. -/
theorem proxyGot_eq {dg : Bool} {s : State} {tr : Trace} (e : Exec (step dg) init tr s) (p : Nat) :
    proxyGot p tr = ((took p (s.proxies p).remote tr).filter (fun x => x.2 = (s.proxies p).remote)).map
      Prod.fst := by
  induction e with
  | nil => rfl
  | @snoc tr s s' a o e hs ih =>
    have m := move_of_step hs
    have hf := (good_hist e).1.fresh
    have h0 := (pipe e).noProxy p
    rw [proxyGot_snoc, took_snoc, List.filter_append, List.map_append]
    cases m
    case proxyRecv q x b l ha hq =>
      dsimp only
      rw [ih]
      congr 1
      by_cases hq : q = p
      · subst hq
        by_cases hb : (s.proxies q).remote = b
        · rw [if_pos hb]; simp
        · rw [if_neg hb]; simp [Ne.symm hb]
      · by_cases hb : (s.proxies q).remote = b <;> simp [hq, hb]
    case proxyTake =>
      simp only [List.append_nil]
      by_cases hp : p = s.proxyCount
      · subst hp
        rw [ih, h0 _ (Nat.le_refl _)]
        simp [upd_same, h0 _ (Nat.le_refl _)]
      · simp [upd_ne _ _ hp, ih]
    case dropProxy q ha =>
      simp only [List.append_nil]
      by_cases hp : p = q
      · subst hp
        simp [upd_same, ih]
      · simp [upd_ne _ _ hp, ih]
    all_goals (simp only [List.append_nil]; rw [ih]; simp)

end Rsomeip.Rt.Ep
