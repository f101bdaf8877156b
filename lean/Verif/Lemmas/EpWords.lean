import Verif.Lemmas.EpMade

/-! # What the history says about handles, connections and calls -/

namespace Rsomeip

open Rt Rt.Ep Spec Spec.Ep
open Someip (InterfaceId)

/-- The connection's task has ended: the socket reported the end or an error, sending failed, or nobody
used it any more. -/
def Spec.Ep.ConnOver (c : Nat) (tr : Trace) : Prop :=
  (∃ r, (.packet c r, .ended) ∈ tr) ∨ (.connCmd c, .ended) ∈ tr ∨ ∃ b, (.sent c false, .wire b false) ∈ tr

/-- Connection `c` was opened and its task has not ended. -/
def Spec.Ep.ConnOpen (c : Nat) (tr : Trace) : Prop :=
  (∃ a, Shown tr (.opened c a)) ∧ ¬ ConnOver c tr

/-- Stub `k` was handed out and has not been dropped. -/
def Spec.Ep.StubOpen (k : Nat) (tr : Trace) : Prop :=
  (∃ i id, Shown tr (.serving k i id)) ∧ (.dropStub k, .none) ∉ tr

/-- Proxy `p` was handed out and has not been dropped. -/
def Spec.Ep.ProxyOpen (p : Nat) (tr : Trace) : Prop :=
  (∃ i id a, Shown tr (.proxying p i id a)) ∧ (.dropProxy p, .none) ∉ tr

/-- Stub `k` is in a call of `send_to`: it was called, and since then it has neither returned nor been
cancelled. -/
def Spec.Ep.inCall (k : Nat) (tr : Spec.Ep.Trace) : Bool :=
  tr.foldl (fun r e => match e with
    | (.stubSend j _ _, _) => if j = k then true else r
    | (.stubStep j, .accepted _ _) => if j = k then false else r
    | (.stubStep j, .sendFailed _) => if j = k then false else r
    | (_, .connectFailed j _) => if j = k then false else r
    | (.stubCancel j, _) => if j = k then false else r
    | (.dropStub j, _) => if j = k then false else r
    | _ => r) false

/-- `recv_from` of stub `k` has returned everything that was put into its channel `i`. -/
def Spec.Ep.StubRead (k i : Nat) (tr : Trace) : Prop := stubGot k tr = routedTo i tr

/-- The messages that `recv` of proxy `p` has returned or skipped, in order. -/
def Spec.Ep.proxySaw (p : Nat) (tr : Trace) : List Msg :=
  tr.filterMap fun e => match e with
    | (.proxyRecv j, .reply m) => if j = p then some m else none
    | (.proxyRecv j, .skipped m _) => if j = p then some m else none
    | _ => none

/-- `recv` of proxy `p` has returned or skipped everything that was put into its channel `i`. -/
def Spec.Ep.ProxyRead (p i : Nat) (tr : Trace) : Prop := proxySaw p tr = (routedTo i tr).map Prod.fst

namespace Rt.Ep

variable {dg : Bool} {tr : Trace} {s : State}

theorem connOver_snoc {c : Nat} {x : Action} {o : Obs} : ConnOver c (tr ++ [(x, o)]) ↔ ConnOver c tr ∨
    ((∃ r, x = .packet c r) ∧ o = .ended) ∨ (x = .connCmd c ∧ o = .ended) ∨
      ∃ b, x = .sent c false ∧ o = .wire b false := by
  simp only [ConnOver, List.mem_append, List.mem_singleton, Prod.mk.injEq]
  grind

theorem shown_iff {x : Action} {o y : Obs} : Shown (tr ++ [(x, o)]) y ↔ Shown tr y ∨ y = o :=
  ⟨shown_snoc, fun h => by
    rcases h with ⟨z, h⟩ | rfl
    · exact ⟨z, List.mem_append_left _ h⟩
    · exact ⟨x, List.mem_append_right _ (List.mem_singleton_self _)⟩⟩

theorem shown_of_mem {o : Obs} (h : o ∈ tr.map Prod.snd) : Shown tr o := by
  obtain ⟨⟨x, _⟩, h1, rfl⟩ := List.mem_map.mp h
  exact ⟨x, h1⟩

theorem conn_shown (e : Exec (step dg) init tr s) (c : Nat) :
    c < s.connCount ↔ ∃ a, Shown tr (.opened c a) := by
  induction e with
  | nil => simp [init, Shown]
  | @snoc tr s s' x o e h ih =>
    have m := move_of_step h
    simp only [shown_iff, exists_or, ← ih]
    clear h e ih
    cases m <;> first | (simp; done) | (simp; omega) | (split <;> simp)

/-- A connection runs exactly if it was opened and has not ended. -/
theorem conn_open_iff (e : Exec (step dg) init tr s) (c : Nat) :
    (s.conns c).alive = true ↔ ConnOpen c tr := by
  suffices h : (ConnOver c tr → c < s.connCount) ∧
      ((s.conns c).alive = true ↔ c < s.connCount ∧ ¬ ConnOver c tr) by
    rw [ConnOpen, ← conn_shown e]; exact h.2
  induction e with
  | nil => simp [init, ConnOver]
  | @snoc tr s s' x o e h ih =>
    have hf := (good_hist e).1.fresh.conns
    have hg := (good_hist e).1.ended.conns
    have m := move_of_step h
    simp only [connOver_snoc]
    have hx : ∀ d r, (∃ r', Action.packet d r = Action.packet c r') ↔ d = c := by simp
    clear h e
    cases m <;> first | (simpa using ih) | (simp only [hx]; grind [upd, Conn.ended, newConn])

/-- A connection that does not run was not opened or has ended. -/
theorem dead_iff (e : Exec (step dg) init tr s) (c : Nat) :
    (s.conns c).alive = false ↔ (∀ a, ¬ Shown tr (.opened c a)) ∨ ConnOver c tr := by
  rw [← Bool.not_eq_true, conn_open_iff e, ConnOpen, Classical.not_and_iff_not_or_not, Classical.not_not,
    not_exists]

/-- A connection that was opened and does not run has ended. -/
theorem over_of_dead (e : Exec (step dg) init tr s) {c : Nat} (hc : c < s.connCount)
    (h : (s.conns c).alive = false) : ConnOver c tr := by
  rcases (dead_iff e c).mp h with h | h
  · obtain ⟨a, h1⟩ := (conn_shown e c).mp hc
    exact absurd h1 (h a)
  · exact h

theorem stub_shown (e : Exec (step dg) init tr s) (k : Nat) :
    k < s.stubCount ↔ ∃ i id, Shown tr (.serving k i id) := by
  induction e with
  | nil => simp [init, Shown]
  | @snoc tr s s' x o e h ih =>
    have m := move_of_step h
    have h3 := answer_cases s
    have h4 := refuse_cases s
    simp only [shown_iff, exists_or, ← ih]
    clear h e ih
    cases m <;> first | (simp; done) | (simp; omega) | grind

/-- A stub is there exactly if it was handed out and has not been dropped. -/
theorem stub_open_iff (e : Exec (step dg) init tr s) (k : Nat) :
    (s.stubs k).alive = true ↔ StubOpen k tr := by
  suffices h : ((.dropStub k, .none) ∈ tr → k < s.stubCount) ∧
      ((s.stubs k).alive = true ↔ k < s.stubCount ∧ (.dropStub k, .none) ∉ tr) by
    rw [StubOpen, ← stub_shown e]; exact h.2
  induction e with
  | nil => simp [init]
  | @snoc tr s s' x o e h ih =>
    have hf := (good_hist e).1.fresh.stubs
    have m := move_of_step h
    have h3 := answer_cases s
    have h4 := refuse_cases s
    simp only [List.mem_append, List.mem_singleton, Prod.mk.injEq]
    clear h e
    cases m <;> first | (simpa using ih) | grind [upd, stubAt_apply]

theorem proxy_shown (e : Exec (step dg) init tr s) (p : Nat) :
    p < s.proxyCount ↔ ∃ i id a, Shown tr (.proxying p i id a) := by
  induction e with
  | nil => simp [init, Shown]
  | @snoc tr s s' x o e h ih =>
    have m := move_of_step h
    have h3 := answer_cases s
    have h4 := refuse_cases s
    simp only [shown_iff, exists_or, ← ih]
    clear h e ih
    cases m <;> first | (simp; done) | (simp; omega) | grind

/-- A proxy is there exactly if it was handed out and has not been dropped. -/
theorem proxy_open_iff (e : Exec (step dg) init tr s) (p : Nat) :
    (s.proxies p).alive = true ↔ ProxyOpen p tr := by
  suffices h : ((.dropProxy p, .none) ∈ tr → p < s.proxyCount) ∧
      ((s.proxies p).alive = true ↔ p < s.proxyCount ∧ (.dropProxy p, .none) ∉ tr) by
    rw [ProxyOpen, ← proxy_shown e]; exact h.2
  induction e with
  | nil => simp [init]
  | @snoc tr s s' x o e h ih =>
    have hf := (good_hist e).1.fresh.proxies
    have m := move_of_step h
    have h3 := answer_cases s
    have h4 := refuse_cases s
    simp only [List.mem_append, List.mem_singleton, Prod.mk.injEq]
    clear h e
    cases m <;> first | (simpa using ih) | grind [upd]

theorem inCall_snoc (k : Nat) (t : Trace) (x : Action × Obs) :
    inCall k (t ++ [x]) = match x with
      | (.stubSend j _ _, _) => if j = k then true else inCall k t
      | (.stubStep j, .accepted _ _) => if j = k then false else inCall k t
      | (.stubStep j, .sendFailed _) => if j = k then false else inCall k t
      | (_, .connectFailed j _) => if j = k then false else inCall k t
      | (.stubCancel j, _) => if j = k then false else inCall k t
      | (.dropStub j, _) => if j = k then false else inCall k t
      | _ => inCall k t := by
  simp only [inCall, List.foldl_append, List.foldl_cons, List.foldl_nil]

/-- A stub is in a call exactly if it was called and has not returned since. -/
theorem idle_iff (e : Exec (step dg) init tr s) (k : Nat) :
    (s.stubs k).pc = .idle ↔ inCall k tr = false := by
  induction e with
  | nil => simp [init, inCall]
  | @snoc t' s s' a o e hs ih =>
    rw [inCall_snoc]
    have h5 := answer_cases s
    have h6 := refuse_cases s
    have h6' : ∀ j t, (∃ b m, (s.stubs j).pc = .asked b m t) →
        ((refuse s j t k).pc = .idle ↔ (if j = k then false else inCall k t') = false) := by
      rintro j t ⟨b, m, h⟩
      simp only [refuse, h, if_true, upd]
      by_cases hj : j = k
      · simp [hj]
      · rw [if_neg hj, if_neg (Ne.symm hj)]; exact ih
    have h7 := (good_hist e).1.fresh.stubs s.stubCount (Nat.le_refl _)
    have h8 := (good_hist e).1.ended.stubs k
    have m := move_of_step hs
    clear hs e
    cases m
    case connectFail j a t _ _ hk | connectRefused j a t _ _ hk => exact h6' j t hk
    all_goals first | (exact ih) | grind [upd, stubAt_apply]

theorem busy_iff (e : Exec (step dg) init tr s) (k : Nat) :
    (s.stubs k).pc ≠ .idle ↔ inCall k tr = true := by
  rw [Ne, idle_iff e, Bool.not_eq_false]

/-- The endpoint task has ended exactly if it showed so. -/
theorem ended_iff (e : Exec (step dg) init tr s) : s.pc = .stopped ↔ ∃ ok, (.ep ok, .ended) ∈ tr := by
  induction e with
  | nil => simp [init]
  | @snoc tr s s' a o e hs ih =>
    simp only [List.mem_append, List.mem_singleton, exists_or, ← ih]
    cases move_of_step hs <;> simp_all

theorem saw_eq (p : Nat) (r : Addr) (tr : Trace) : proxySaw p tr = (took p r tr).map Prod.fst := by
  simp only [proxySaw, took, List.map_filterMap]
  congr 1
  funext ⟨x, o⟩
  cases x <;> cases o <;> first | rfl | (dsimp only; split <;> rfl)

/-- The channel of an open stub that has read everything is empty. -/
theorem stub_read (e : Exec (step dg) init tr s) {k i : Nat} {id : InterfaceId}
    (hk : Shown tr (.serving k i id)) (ha : (s.stubs k).alive = true) (h : StubRead k i tr) :
    (s.ifaces i).queue = [] := by
  have h1 := (pipe e).stub k ha
  rw [((made e).stub k i id hk).2.1, h] at h1
  exact List.append_right_eq_self.mp h1

/-- The channel of an open proxy that has read everything is empty. -/
theorem proxy_read (e : Exec (step dg) init tr s) {p i : Nat} {id : InterfaceId} {r : Addr}
    (hp : Shown tr (.proxying p i id r)) (ha : (s.proxies p).alive = true) (h : ProxyRead p i tr) :
    (s.ifaces i).queue = [] := by
  have h1 := congrArg (List.map Prod.fst) ((pipe e).proxy p ha)
  rw [((made e).proxy p i id r hp).2.1, List.map_append, ← saw_eq, h] at h1
  exact List.map_eq_nil_iff.mp (List.append_right_eq_self.mp h1)

end Rt.Ep

end Rsomeip
