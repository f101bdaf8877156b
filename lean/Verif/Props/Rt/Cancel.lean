import Verif.Props.Rt.Send
import Verif.Props.Rt.Unpolled

/-! # C124: a call of `send_to` that does not return `Ok` sends nothing -/

namespace Rsomeip

open Rt Rt.Ep Spec Spec.Ep Someip

/-- The messages for which `send_to` of stub `k` returned `Ok`, in order. -/
def Spec.Ep.sentBy (k : Nat) (t : Trace) : List Msg :=
  t.filterMap fun e => match e with
    | (.stubStep j, .accepted _ m) => if j = k then some m else none
    | _ => none

/-- The messages that `send_to` of stub `k` was called with, in order. -/
def Spec.Ep.callsOf (k : Nat) (t : Trace) : List Msg :=
  t.filterMap fun e => match e with
    | (.stubSend j _ m, _) => if j = k then some m else none
    | _ => none

variable {dg : Bool} {k : Nat}

theorem sentBy_append (t u : Trace) : sentBy k (t ++ u) = sentBy k t ++ sentBy k u :=
  List.filterMap_append ..

theorem callsOf_append (t u : Trace) : callsOf k (t ++ u) = callsOf k t ++ callsOf k u :=
  List.filterMap_append ..

theorem sentBy_single (x : Action) (o : Obs) :
    (sentBy k [(x, o)] = [] ∧ ∀ c m, (x, o) ≠ (.stubStep k, .accepted c m)) ∨
    ∃ c m, x = .stubStep k ∧ o = .accepted c m ∧ sentBy k [(x, o)] = [m] := by
  cases x <;> cases o <;> simp [sentBy]
  rename_i j _ _
  by_cases h : j = k <;> simp [h]

theorem callsOf_single (x : Action) (o : Obs) :
    (callsOf k [(x, o)] = [] ∧ ∀ a m, x ≠ .stubSend k a m) ∨
    ∃ a m, x = .stubSend k a m ∧ callsOf k [(x, o)] = [m] := by
  cases x <;> simp [callsOf]
  rename_i j _ _
  by_cases h : j = k <;> simp [h]

/-- The call in progress: its message, if there is one. -/
def Spec.Ep.openCall (k : Nat) (tr : Trace) : List Msg :=
  if inCall k tr then (lastCall k tr).toList.map Prod.snd else []

/-- No call of `send_to` at stub `k` begins. -/
def Spec.Ep.NoCall (k : Nat) (t : Trace) : Prop := ∀ x ∈ t, ∀ a m, x.1 ≠ .stubSend k a m

/-- Only a call in progress returns `Ok`, and then it is over. -/
theorem ok_ends {t : Trace} {s : State} {c : Nat} {m : Msg}
    (e : Exec (step dg) init (t ++ [(.stubStep k, .accepted c m)]) s) :
    inCall k t = true ∧ (∃ a, lastCall k t = some (a, m)) ∧
      inCall k (t ++ [(.stubStep k, .accepted c m)]) = false := by
  obtain ⟨a, h1, -⟩ := C73_stub e
  refine ⟨?_, ⟨a, h1⟩, by rw [inCall_snoc]; simp⟩
  obtain ⟨s₁, e₁, hs⟩ := e.last
  rw [← Bool.not_eq_false, ← idle_iff e₁]
  intro h
  simp [step, stubStep, h] at hs

/-- Without a new call, a stub that is in no call stays so. -/
theorem inCall_stays {t : Trace} {x : Action} {o : Obs} (h : inCall k t = false)
    (hx : ∀ a m, x ≠ .stubSend k a m) : inCall k (t ++ [(x, o)]) = false := by
  rw [inCall_snoc]
  split <;> first | exact h | (split <;> first | exact h | rfl | skip)
  rename_i h1 h2
  cases h1
  subst h2
  exact absurd rfl (hx _ _)

/-- Until the next call, a call returns `Ok` at most once, and then it is over. -/
theorem sent_since {t u : Trace} {s : State} (e : Exec (step dg) init (t ++ u) s) (hn : NoCall k u) :
    lastCall k (t ++ u) = lastCall k t ∧ (inCall k t = false → inCall k (t ++ u) = false) ∧
    (sentBy k u = [] ∨ inCall k t = true ∧ inCall k (t ++ u) = false ∧
      ∃ a m, lastCall k t = some (a, m) ∧ sentBy k u = [m]) := by
  generalize hw : t ++ u = w at e
  induction e generalizing u with
  | nil => obtain ⟨rfl, rfl⟩ := List.append_eq_nil_iff.mp hw; exact ⟨rfl, id, .inl rfl⟩
  | @snoc w s₁ s₂ x o e₁ hs ih =>
    rcases List.eq_nil_or_concat u with rfl | ⟨u, y, rfl⟩
    · rw [List.append_nil] at hw; subst hw; exact ⟨rfl, id, .inl rfl⟩
    rw [List.concat_eq_append, ← List.append_assoc] at hw
    obtain ⟨hw', hy⟩ := List.append_inj' hw rfl
    cases hy
    have hx : ∀ a m, x ≠ .stubSend k a m := fun a m => hn (x, o) (by simp) a m
    obtain ⟨h1, h2, h3⟩ := ih
      (fun y hy => hn y (by rw [List.concat_eq_append]; exact List.mem_append_left _ hy)) hw'
    subst hw'
    have h4 : lastCall k (t ++ u ++ [(x, o)]) = lastCall k (t ++ u) := by
      rw [lastCall_snoc]
      split
      · split
        · rename_i h; subst h; exact absurd rfl (hx _ _)
        · rfl
      · rfl
    rw [List.concat_eq_append, h4, sentBy_append]
    refine ⟨h1, fun h => inCall_stays (h2 h) hx, ?_⟩
    rcases sentBy_single (k := k) x o with ⟨h5, -⟩ | ⟨c, m, rfl, rfl, h5⟩
    · rw [h5, List.append_nil]
      exact h3.imp id fun ⟨h6, h7, h8⟩ => ⟨h6, inCall_stays h7 hx, h8⟩
    · obtain ⟨h6, ⟨a, h7⟩, h8⟩ := ok_ends (e₁.snoc hs)
      rcases h3 with h3 | ⟨-, h3, -⟩
      · refine .inr ⟨?_, h8, a, m, h1 ▸ h7, by rw [h3, h5]; rfl⟩
        rw [← Bool.not_eq_false]
        intro h
        rw [h2 h] at h6
        cases h6
      · rw [h3] at h6; cases h6

/-- **C124.** A call of `send_to` that ends otherwise than by returning `Ok` has sent nothing and sends
nothing later: it returned an error, or it was cancelled, or the stub was dropped. -/
theorem C124_unsent {t u v : Trace} {s : State} {a : Addr} {m : Msg} {w o : Obs} {x : Action}
    (e : Exec (step dg) init (t ++ (.stubSend k a m, w) :: u ++ (x, o) :: v) s)
    (hu : NoCall k u) (hv : NoCall k v) (hi : inCall k (t ++ (.stubSend k a m, w) :: u) = true)
    (ho : inCall k (t ++ (.stubSend k a m, w) :: u ++ [(x, o)]) = false)
    (hx : ∀ c m', (x, o) ≠ (.stubStep k, .accepted c m')) : sentBy k (u ++ (x, o) :: v) = [] := by
  have e1 : Exec (step dg) init (t ++ (.stubSend k a m, w) :: u ++ [(x, o)] ++ v) s := by simpa using e
  obtain ⟨s₁, e2, -⟩ := e.split
  have h1 := (sent_since e1 hv).2.2
  have h2 := (sent_since (t := t ++ [(.stubSend k a m, w)]) (by simpa using e2) hu).2.2
  have h3 : sentBy k u = [] := h2.resolve_right fun h => by
    have h := h.2.1
    rw [List.append_assoc, List.singleton_append, hi] at h
    cases h
  have h4 : sentBy k v = [] := h1.resolve_right fun h => by rw [ho] at h; cases h.1
  have h5 : sentBy k [(x, o)] = [] := (sentBy_single x o).elim And.left
    fun ⟨c, m', h, h', _⟩ => absurd (by rw [h, h']) (hx c m')
  rw [sentBy_append, ← List.singleton_append, sentBy_append, h3, h4, h5]
  rfl

/-- **C124.** A call of `send_to` that is cancelled while it is in progress has sent nothing and sends
nothing later. -/
theorem C124_cancelled {t u v : Trace} {s : State} {a : Addr} {m : Msg} {w : Obs}
    (e : Exec (step dg) init (t ++ (.stubSend k a m, w) :: u ++ (.stubCancel k, .none) :: v) s)
    (hu : NoCall k u) (hv : NoCall k v) (hi : inCall k (t ++ (.stubSend k a m, w) :: u) = true) :
    sentBy k (u ++ (.stubCancel k, .none) :: v) = [] :=
  C124_unsent e hu hv hi (by rw [inCall_snoc]; simp) nofun

/-- **C124.** Until the next call, `send_to` returns `Ok` at most once, for the message it was called
with. -/
theorem C124_once {t u : Trace} {s : State} {a : Addr} {m : Msg} {w : Obs}
    (e : Exec (step dg) init (t ++ (.stubSend k a m, w) :: u) s) (hu : NoCall k u) :
    sentBy k u = [] ∨ sentBy k u = [m] := by
  obtain ⟨-, -, h⟩ := sent_since (t := t ++ [(.stubSend k a m, w)]) (by simpa using e) hu
  refine h.imp id fun ⟨_, _, b, m', h1, h2⟩ => ?_
  rw [lastCall_snoc] at h1
  simp only [if_true, Option.some.injEq, Prod.mk.injEq] at h1
  rw [h2, h1.2]

/-- **C124.** What a stub has sent are messages it was called with, in the order of the calls, each
once for each call; a call in progress has not sent its message. -/
theorem C124_calls {tr : Trace} {s : State} (e : Exec (step dg) init tr s) :
    List.Sublist (sentBy k tr ++ openCall k tr) (callsOf k tr) := by
  induction e with
  | nil => simp [sentBy, openCall, inCall, callsOf]
  | @snoc tr s s' x o e hs ih =>
    rw [sentBy_append, callsOf_append]
    rcases callsOf_single (k := k) x o with ⟨h1, hx⟩ | ⟨a, m, rfl, h1⟩
    · rw [h1, List.append_nil]
      have hl : lastCall k (tr ++ [(x, o)]) = lastCall k tr :=
        (sent_since (e.snoc hs) (by simpa [NoCall] using hx)).1
      rcases sentBy_single (k := k) x o with ⟨h2, -⟩ | ⟨c, m, rfl, rfl, h2⟩
      · rw [h2, List.append_nil]
        by_cases h3 : inCall k (tr ++ [(x, o)]) = true
        · have h4 : inCall k tr = true := by
            rw [← Bool.not_eq_false]
            intro h
            rw [inCall_stays h hx] at h3
            cases h3
          simpa only [openCall, h3, h4, hl] using ih
        · rw [openCall, if_neg h3, List.append_nil]
          exact (List.sublist_append_left ..).trans ih
      · obtain ⟨h3, ⟨a, h4⟩, h5⟩ := ok_ends (e.snoc hs)
        rw [h2]
        simpa [openCall, h3, h4, h5] using ih
    · have h2 : sentBy k [(.stubSend k a m, o)] = [] := rfl
      have h3 : openCall k (tr ++ [(.stubSend k a m, o)]) = [m] := by
        simp [openCall, inCall_snoc, lastCall_snoc]
      rw [h1, h2, h3, List.append_nil]
      exact ((List.sublist_append_left ..).trans ih).append (.refl _)

/-- **C124.** A cancelled call holds up nobody: everybody who needs the entry of an address that no other
call keeps locked goes on, and the stub can be called again. -/
theorem C124_released {tr : Trace} {s : State} {a : Addr} {o : Obs}
    (e : Exec (step dg) init (tr ++ [(.stubCancel k, o)]) s) (h : ∀ j, j ≠ k → ¬ Clogs j a s) :
    (∀ id ok, s.pc = .proxyGet id a → ∃ s' o, step dg s (.ep ok) = some (s', o)) ∧
    (∀ l c, (s.liss l).pc = .share c → (s.conns c).addr = a →
      ∃ s' o, step dg s (.lisShare l) = some (s', o)) ∧
    (∀ j, Wants a (s.stubs j).pc → ∃ s' o, step dg s (.stubStep j) = some (s', o)) ∧
    ∀ b m, ∃ s' o, step dg s (.stubSend k b m) = some (s', o) := by
  obtain ⟨s₁, e₁, hs⟩ := e.last
  have h1 : (s.stubs k).pc = .idle ∧ (s.stubs k).alive = true := by
    cases move_of_step hs
    simp_all [stubAt_apply]
  have h2 := C100_partial e (a := a) fun j => by
    by_cases hj : j = k
    · subst hj
      rintro ⟨b, m, c, h3, -⟩
      rw [h1.1] at h3
      cases h3
    · exact h j hj
  exact ⟨h2.1, h2.2.1, h2.2.2, fun b m => by simp [step, h1]⟩

/-- Before the call: two stubs are served, address 8 connects, the socket is busy with a first message to
it and a second one fills the queue. -/
def Spec.Ep.beforeCall : Trace :=
  [(.serve ⟨1, 1⟩, .none), (.ep true, .none), (.ep true, .none), (.ep true, .none),
    (.ep true, .none), (.ep true, .serving 0 0 ⟨1, 1⟩), (.lisCmd 0, .none),
    (.serve ⟨2, 1⟩, .none), (.ep true, .none), (.ep true, .none), (.ep true, .none),
    (.ep true, .none), (.ep true, .serving 1 1 ⟨2, 1⟩), (.lisCmd 0, .none),
    (.accept 0 8, .opened 0 8), (.lisShare 0, .none),
    (.stubSend 0 8 msgA, .none), (.stubStep 0, .none), (.stubStep 0, .none),
    (.stubStep 0, .accepted 0 msgA), (.connCmd 0, .none),
    (.stubSend 0 8 msgA, .none), (.stubStep 0, .none), (.stubStep 0, .none),
    (.stubStep 0, .accepted 0 msgA)]

/-- The call waits for room in the queue; stub 1 calls for the same address, a proxy to it is asked for,
and both wait. -/
def Spec.Ep.duringCall : Trace :=
  [(.stubStep 0, .none), (.stubStep 0, .none), (.stubSend 1 8 msgB, .none), (.proxy ⟨3, 1⟩ 8, .none),
    (.ep true, .none), (.ep true, .none)]

/-- After the call was cancelled, stub 1 and the endpoint go on. -/
def Spec.Ep.afterCall : Trace :=
  [(.stubStep 1, .none), (.ep true, .none), (.stubStep 1, .none), (.sent 0 true, .wire (frame msgA) true),
    (.connCmd 0, .none), (.stubStep 1, .accepted 0 msgB)]

theorem cancel_exec : ∃ s, Exec (step true) init
    (beforeCall ++ (.stubSend 0 8 msgB, .none) :: duringCall ++ (.stubCancel 0, .none) :: afterCall) s := by
  let tr : Trace := beforeCall ++ (.stubSend 0 8 msgB, .none) :: duringCall ++
    (.stubCancel 0, .none) :: afterCall
  have h : (perform (step true) init (tr.map Prod.fst)).map
      (fun x => x.1.map Prod.snd) = some (tr.map Prod.snd) := by decide +kernel
  obtain ⟨s, e⟩ := exec_of_shown h
  exact ⟨s, e⟩

/-- The call is in progress when it is cancelled. -/
example : NoCall 0 duringCall ∧ NoCall 0 afterCall ∧
    inCall 0 (beforeCall ++ (.stubSend 0 8 msgB, .none) :: duringCall) = true :=
  ⟨by simp [NoCall, duringCall], by simp [NoCall, afterCall], by decide⟩

/-- The calls before returned `Ok`, the one of the other stub after it, too. -/
example : sentBy 0 (beforeCall ++ duringCall ++ afterCall) = [msgA, msgA] ∧
    sentBy 1 (duringCall ++ afterCall) = [msgB] := by decide

/-- The call fails: the endpoint is gone and with it the connection. -/
example : ∃ s, Exec (step true) init (beforeCall.take 7 ++ (.stubSend 0 8 msgB, .none) ::
      [(.close, .none), (.ep true, .ended)] ++ (.stubStep 0, .sendFailed .notConnected) :: []) s ∧
    inCall 0 (beforeCall.take 7 ++ (.stubSend 0 8 msgB, .none) ::
      [(.close, .none), (.ep true, .ended)]) = true ∧
    inCall 0 (beforeCall.take 7 ++ (.stubSend 0 8 msgB, .none) ::
      [(.close, .none), (.ep true, .ended)] ++ [(.stubStep 0, .sendFailed .notConnected)]) = false := by
  let tr : Trace := beforeCall.take 7 ++ (.stubSend 0 8 msgB, .none) ::
    [(.close, .none), (.ep true, .ended)] ++ (.stubStep 0, .sendFailed .notConnected) :: []
  have h : (perform (step true) init (tr.map Prod.fst)).map
      (fun x => x.1.map Prod.snd) = some (tr.map Prod.snd) := by decide +kernel
  obtain ⟨s, e⟩ := exec_of_shown h
  exact ⟨s, e, by decide, by decide⟩

/-- After the call was cancelled no call keeps the lock; the endpoint and stub 1 need it. -/
example : ∃ tr s, Exec (step true) init (tr ++ [(.stubCancel 0, .none)]) s ∧ (∀ j, ¬ Clogs j 8 s) ∧
    s.pc = .proxyGet ⟨3, 1⟩ 8 ∧ Wants 8 (s.stubs 1).pc := by
  let tr : Trace := beforeCall ++ (.stubSend 0 8 msgB, .none) :: duringCall
  let tr' : Trace := tr ++ [(.stubCancel 0, .none)]
  obtain ⟨t, s, e, h⟩ := exec_by (step := step true) (s := init) (tr'.map Prod.fst)
    (fun t s => decide (t = tr' ∧ s.peerLocked 8 = false ∧ s.pc = .proxyGet ⟨3, 1⟩ 8 ∧
      (s.stubs 1).pc = .check 8 msgB)) (by decide +kernel)
  obtain ⟨rfl, h2, h3, h4⟩ := of_decide_eq_true h
  refine ⟨tr, s, e, fun j hj => ?_, h3, by rw [h4]; exact .check _⟩
  rw [clogs_locked hj (good_hist e).1.fresh] at h2
  cases h2

end Rsomeip
