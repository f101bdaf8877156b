import Verif.Props.Rt.Udp

/-! # C80, C81: the end of a UDP socket -/

namespace Rsomeip

open Rt Rt.Udp Spec.Udp

/-! ### Failing sockets -/

theorem stopped_step {s s' : State} {act : Action} {o : Obs} (h : s.pc = .stopped)
    (m : Move s act o s') : s'.pc = .stopped := by
  cases m <;> first | exact h | rfl | (have hpc := ‹s.pc = _›; rw [h] at hpc; cases hpc)

theorem silent_step {s s' : State} {act : Action} {o : Obs} {c : Nat} (t : Tables s)
    (h : s.pc = .stopped) (hc : c < s.chanCount) (hq : (s.chans c).queue = [])
    (hm : (s.chans c).missed = 0) (m : Move s act o s') :
    c < s'.chanCount ∧ (s'.chans c).queue = [] ∧ (s'.chans c).missed = 0 := by
  have h3 := t.queues
  cases m <;> first
    | (have hpc := ‹s.pc = _›; rw [h] at hpc; cases hpc; done)
    | grind [upd]

/-- **C80** fails: when reading from the operating system's socket has failed, a connection whose
packets have all been read is not told. Its `recv` does not return any more, neither with a packet
nor with `Closed`, for as long as the `UdpSocket` is kept. -/
theorem C80_failure_not_reported {t u v : Trace} {s s' : State} {a : Addr} {c : Nat}
    (e : Exec step init (t ++ (.connect a, .connection c a) :: u) s) (hb : busy t ≠ some a)
    (hf : (.failure, .none) ∈ t ++ u) (hr : AllRead c (t ++ (.connect a, .connection c a) :: u))
    (e' : Exec step s v s') (h1 : ∀ x ∈ u ++ v, x.1 ≠ .connect a)
    (h2 : ∀ x ∈ u ++ v, x.1 ≠ .dropReceiver c) (h3 : ∀ x ∈ t ++ u ++ v, x.1 ≠ .close) :
    ∀ x ∈ v, x.1 ≠ .recv c := by
  have k0 := kept_exec e hb (fun x hx => h1 x (List.mem_append_left _ hx))
    (fun x hx => h2 x (List.mem_append_left _ hx))
  have hpc : s.pc = .stopped := by
    refine (failed_iff e).mp ?_
    rcases List.mem_append.mp hf with h | h
    · exact List.mem_append_left _ h
    · exact List.mem_append_right _ (List.mem_cons_of_mem _ h)
  have ho : s.owner = true := by
    cases h : s.owner with
    | true => rfl
    | false =>
      have := (closed_iff e).mpr h
      rcases List.mem_append.mp this with h | h
      · exact absurd rfl (h3 _ (List.mem_append_left _ (List.mem_append_left _ h)))
      · rcases List.mem_cons.mp h with h | h
        · cases h
        · exact absurd rfl (h3 _ (List.mem_append_left _ (List.mem_append_right _ h)))
  obtain ⟨hq, hm⟩ := (all_read_iff e k0.rx).mp hr
  suffices h : Kept a c s' ∧ s'.pc = .stopped ∧ s'.owner = true ∧ Tables s' ∧
      (s'.chans c).queue = [] ∧ (s'.chans c).missed = 0 ∧ ∀ x ∈ v, x.1 ≠ .recv c from
    h.2.2.2.2.2.2
  have t := (exec_inv e).1
  clear hr hf hb
  induction e' with
  | nil => exact ⟨k0, hpc, ho, t, hq, hm, fun x hx => nomatch hx⟩
  | @snoc tr1 s1 s2 act o _ hs ih =>
    rw [← List.append_assoc] at h1 h2 h3
    obtain ⟨k, hpc, ho, t, hq, hm, i⟩ := ih (fun x hx => h1 x (List.mem_append_left _ hx))
      (fun x hx => h2 x (List.mem_append_left _ hx)) (fun x hx => h3 x (List.mem_append_left _ hx))
    have m := move_of_step hs
    have last : ∀ w : Trace, (act, o) ∈ w ++ [(act, o)] := fun w =>
      List.mem_append_right _ (List.mem_singleton_self _)
    obtain ⟨hc', hq', hm'⟩ := silent_step t hpc k.count hq hm m
    refine ⟨kept_step t k m (h1 _ (last _)) (h2 _ (last _)), stopped_step hpc m,
      owner_step ho m (h3 _ (last _)), tables_step t m, hq', hm', ?_⟩
    intro x hx
    rcases List.mem_append.mp hx with hx | hx
    · exact i x hx
    · cases List.mem_singleton.mp hx
      intro hrecv
      dsimp only at hrecv
      subst hrecv
      have hopen := kept_open k (by simp [State.shared, ho]) m
      cases m with
      | lagged _ _ _ _ hm2 => rw [hm] at hm2; cases hm2
      | packet _ p q _ _ _ _ hq2 => rw [hq] at hq2; cases hq2
      | closed => exact hopen rfl

/-- A connection to peer 7 whose packet is read and whose socket fails; another connection is made
afterwards. -/
example : ∃ s s', Exec step init ([] ++ (.connect 7, .connection 0 7) :: [(.datagram 7 [1], .none),
      (.task, .none), (.task, .routed 7 [1] 0), (.recv 0, .packet [1]), (.failure, .none)]) s ∧
    AllRead 0 ([] ++ (.connect 7, .connection 0 7) :: [(.datagram 7 [1], .none),
      (.task, .none), (.task, .routed 7 [1] 0), (.recv 0, .packet [1]), (.failure, .none)]) ∧
    Exec step s [(.connect 8, .connection 1 8), (.listen 1, .listening 0)] s' :=
  ⟨_, _, exec_of_perform (as := [.connect 7, .datagram 7 [1], .task, .task, .recv 0, .failure]) rfl,
    by decide, exec_of_perform (as := [.connect 8, .listen 1]) rfl⟩

/-- **C80**, the part that holds: once reading has failed *and* the `UdpSocket` is dropped, `recv` and
`accept` do not wait any more. They return what is queued, and after that the end is reported. What
is missing: a failure alone. -/
theorem C80_closed_partial {tr : Trace} {s : State} (e : Exec step init tr s)
    (ho : (.close, .none) ∈ tr) (hf : (.failure, .none) ∈ tr) :
    (∀ c, ReceiverOpen c tr →
      ∃ s' o, step s (.recv c) = some (s', o) ∧ (o = .closed ↔ AllRead c tr)) ∧
    (∀ l, ListenerOpen l tr →
      ∃ s' o, step s (.accept l) = some (s', o) ∧ (o = .acceptNone ↔ pending l tr = [])) := by
  obtain ⟨t, _, _⟩ := exec_inv e
  have ho := (closed_iff e).mp ho
  have hpc := (failed_iff e).mp hf
  have hs : s.shared = false := by simp [State.shared, ho, hpc]
  constructor
  · intro c hc
    obtain ⟨hrx, hh⟩ := (receiver_open_iff e c).mp hc
    rw [all_read_iff e hrx]
    have hc : c < s.chanCount := by
      rcases Nat.lt_or_ge c s.chanCount with h | h
      · exact h
      · have := (t.high c h).1
        rw [hrx] at this
        cases this
    have hsend : s.hasSender c = false := by simp [State.hasSender, hs, hpc]
    rcases Nat.eq_zero_or_pos (s.chans c).missed with hm | hm
    · cases hq : (s.chans c).queue with
      | nil => exact ⟨s, .closed, by simp [step, recv, hc, hrx, hh, hm, hq, hsend], by simp [hm]⟩
      | cons p q =>
        exact ⟨_, .packet p, by simp [step, recv, hc, hrx, hh, hm, hq]; rfl, by simp⟩
    · exact ⟨_, .lagged (s.chans c).missed, by simp [step, recv, hc, hrx, hh, hm]; rfl, by
        simp; intro _; omega⟩
  · intro l hl
    have hrx := (listener_open_iff e l).mp hl
    rw [← (queues e).queue l hrx]
    have hl : l < s.backlogCount := by
      rcases Nat.lt_or_ge l s.backlogCount with h | h
      · exact h
      · have := (t.backlogs l h).1
        rw [hrx] at this
        cases this
    cases hq : (s.backlogs l).queue with
    | nil => exact ⟨s, .acceptNone, by simp [step, accept, hl, hrx, hq, hs], by simp⟩
    | cons x q =>
      exact ⟨_, .connection x.1 x.2, by simp [step, accept, hl, hrx, hq]; rfl, by simp⟩

/-- A socket with a connection, a listener and a pending connection, which is dropped and fails. -/
example : ∃ tr s, Exec step init tr s ∧ (.close, .none) ∈ tr ∧ (.failure, .none) ∈ tr ∧
    ReceiverOpen 0 tr ∧ AllRead 0 tr ∧ ListenerOpen 0 tr ∧ pending 0 tr = [(1, 9)] := by
  let tr : Trace := [(.connect 7, .connection 0 7), (.listen 2, .listening 0), (.datagram 9 [1], .none),
    (.task, .none), (.task, .admitted 9 [1] 1), (.task, .routed 9 [1] 1), (.task, .none), (.close, .none),
    (.failure, .none)]
  exact ⟨tr, _, exec_of_perform (as := [.connect 7, .listen 2, .datagram 9 [1], .task, .task, .task, .task,
    .close, .failure]) rfl, by decide⟩

/-! ### Dropped sockets -/

/-- **C81** fails: dropping the `UdpSocket` does not end its receiving task, so that the operating
system's socket stays bound, and the end is not reported to anyone. As long as reading does not fail,
an existing connection goes on receiving whatever its peer sends, is never closed, and the task is
always able to go on: it takes a step of its own, or waits for the next datagram. -/
theorem C81_runs_on {t u v : Trace} {s : State} {a : Addr} {c : Nat}
    (e : Exec step init (t ++ (.connect a, .connection c a) :: (u ++ (.close, .none) :: v)) s)
    (hb : busy t ≠ some a) (h1 : ∀ x ∈ u, x.1 ≠ .connect a) (h2 : ∀ x ∈ u ++ v, x.1 ≠ .dropReceiver c)
    (h3 : (.failure, .none) ∉ t ++ u ++ v) :
    (.recv c, .closed) ∉ v ∧ (∀ x ∈ fates v, x.1 = a → x.2.2 = some c) ∧
      ((∃ r, step s .task = some r) ∨ ∀ b p, ∃ r, step s (.datagram b p) = some r) := by
  have hno : ∀ x ∈ v, x.1 ≠ .connect a := by
    intro x hx hxa
    obtain ⟨v₁, v₂, rfl⟩ := List.append_of_mem hx
    have hu : t ++ (.connect a, .connection c a) :: (u ++ (.close, .none) :: (v₁ ++ x :: v₂)) =
        (t ++ (.connect a, .connection c a) :: (u ++ (.close, .none) :: v₁)) ++ [x] ++ v₂ := by simp
    rw [hu] at e
    obtain ⟨s₂, e₂, -⟩ := e.split
    obtain ⟨s₁, e₁, hs⟩ := e₂.last
    have ho := (closed_iff e₁).mp (by simp)
    rw [hxa] at hs
    simp [step, connect, ho] at hs
  have hnf : (.failure, .none) ∉ t ++ (u ++ (.close, .none) :: v) := by
    simpa [and_assoc] using h3
  obtain ⟨k1, k2, -⟩ := C60_keeps_working_partial e hb
    (by
      intro x hx
      rcases List.mem_append.mp hx with hx | hx
      · exact h1 x hx
      · rcases List.mem_cons.mp hx with rfl | hx
        · simp
        · exact hno x hx)
    (by
      intro x hx
      rcases List.mem_append.mp hx with hx | hx
      · exact h2 x (List.mem_append_left _ hx)
      · rcases List.mem_cons.mp hx with rfl | hx
        · simp
        · exact h2 x (List.mem_append_right _ hx))
    (.inr hnf)
  refine ⟨fun h => k1 (List.mem_append_right _ (List.mem_cons_of_mem _ h)), fun x hx => k2 x ?_, ?_⟩
  · obtain ⟨y, hy, hyx⟩ := List.mem_filterMap.mp hx
    exact List.mem_filterMap.mpr ⟨y, List.mem_append_right _ (List.mem_cons_of_mem _ hy), hyx⟩
  · have hs : s.pc ≠ .stopped := fun h => by
      have := (failed_iff e).mpr h
      simp only [List.mem_append, List.mem_cons, Prod.mk.injEq, reduceCtorEq, false_and, false_or] at this hnf
      exact hnf this
    cases hp : s.pc with
    | idle => exact .inr fun b p => ⟨_, by simp only [step, hp, if_true]; rfl⟩
    | stopped => exact absurd hp hs
    | lookup b p =>
      left
      cases hg : s.receivers.get b with
      | none => exact ⟨_, by simp only [step, task, hp, hg]; rfl⟩
      | some d => exact ⟨_, by simp only [step, task, hp, hg]; rfl⟩
    | found b p d =>
      left
      simp only [step, task, hp]
      split <;> exact ⟨_, rfl⟩
    | stale b p => exact .inl ⟨_, by simp only [step, task, hp]; rfl⟩
    | admit b p => exact .inl ⟨_, by simp only [step, task, hp]; rfl⟩
    | queued b p d =>
      left
      simp only [step, task, hp]
      split <;> exact ⟨_, rfl⟩
    | filled b d => exact .inl ⟨_, by simp only [step, task, hp]; rfl⟩

/-- After the socket was dropped, a packet still gets to the connection. -/
example : ∃ s, Exec step init ([] ++ (.connect 7, .connection 0 7) :: ([(.listen 1, .listening 0)] ++
      (.close, .none) :: [(.datagram 7 [1], .none), (.task, .none), (.task, .routed 7 [1] 0),
        (.recv 0, .packet [1])])) s :=
  ⟨_, exec_of_perform (as := [.connect 7, .listen 1, .close, .datagram 7 [1], .task, .task, .recv 0]) rfl⟩

/-- **C81** fails for listeners too: the newest listener, if nothing is pending, is not told that the
socket is gone; `accept` keeps waiting, whether the socket was dropped or not. -/
theorem C81_accept_waits {tr : Trace} {s : State} (e : Exec step init tr s) {l n : Nat}
    {rest : List (Nat × Nat)} (hl : listeners tr = (l, n) :: rest) (hf : (.failure, .none) ∉ tr)
    (hq : pending l tr = []) : step s (.accept l) = none := by
  by_cases hd : (.dropListener l, .none) ∈ tr
  · simp [step, accept, ((queues e).dropped l hd).2]
  · have hrx := (listener_open_iff e l).mp ⟨by rw [hl]; exact List.mem_cons_self .., hd⟩
    have hs : s.pc ≠ .stopped := fun h => hf ((failed_iff e).mpr h)
    rw [← (queues e).queue l hrx] at hq
    simp [step, accept, hq, listener_eq e hl hd, State.shared, hs]

/-- The situation comes about: a listener, and then the socket is dropped. -/
example : ∃ tr s, Exec step init tr s ∧ (.close, .none) ∈ tr ∧ listeners tr = [(0, 8)] ∧
    (.failure, .none) ∉ tr ∧ pending 0 tr = [] := by
  let tr : Trace := [(.listen 8, .listening 0), (.close, .none)]
  exact ⟨tr, _, exec_of_perform (as := [.listen 8, .close]) rfl, by decide⟩

/-- **C81**, the part that holds: after the `UdpSocket` is dropped, nothing new can be opened with it,
and if reading fails later, the end is reported as in C80. What is missing: ending without a failure
of the operating system. -/
theorem C81_after_failure_partial {tr : Trace} {s s' : State} (e : Exec step init tr s)
    (ho : (.close, .none) ∈ tr) (h : step s .failure = some (s', .none)) :
    (∀ a, step s (.connect a) = none) ∧ (∀ n, step s (.listen n) = none) ∧
    (∀ c, ReceiverOpen c tr → AllRead c tr → step s' (.recv c) = some (s', .closed)) ∧
    (∀ l, ListenerOpen l tr → pending l tr = [] → step s' (.accept l) = some (s', .acceptNone)) := by
  have e' : Exec step init (tr ++ [(.failure, .none)]) s' := .snoc e h
  have hown := (closed_iff e).mp ho
  obtain ⟨h1, h2⟩ := C80_closed_partial e' (List.mem_append_left _ ho)
    (List.mem_append_right _ (List.mem_singleton_self _))
  refine ⟨fun a => by simp [step, connect, hown], fun n => by simp [step, listen, hown], ?_, ?_⟩
  · intro c hc hr
    obtain ⟨s2, o, hs, hiff⟩ := h1 c (by
      refine ⟨?_, by simpa using hc.2⟩
      rw [connections_snoc, List.map_append]
      exact List.mem_append_left _ hc.1)
    have : AllRead c (tr ++ [(.failure, .none)]) := by
      have h1 : seen c [(.failure, .none)] = [] := rfl
      have h2 : into c [(.failure, .none)] = [] := rfl
      rw [AllRead, seen_snoc, into_snoc, h1, h2, List.append_nil, List.append_nil]
      exact hr
    cases hiff.mpr this
    cases move_of_step hs
    exact hs
  · intro l hl hq
    obtain ⟨s2, o, hs, hiff⟩ := h2 l (by
      refine ⟨?_, by simpa using hl.2⟩
      rw [listeners_snoc, List.map_append]
      exact List.mem_append_right _ hl.1)
    have : pending l (tr ++ [(.failure, .none)]) = [] := by
      rw [pending, (queues e).offered_snoc (exec_inv e).2.2 (move_of_step h), takenFrom_snoc]
      simpa [takenFrom, pending] using hq
    cases hiff.mpr this
    cases move_of_step hs
    exact hs

/-- A connection and a listener of a dropped socket whose task then fails. -/
example : ∃ tr s s', Exec step init tr s ∧ (.close, .none) ∈ tr ∧ step s .failure = some (s', .none) ∧
    ReceiverOpen 0 tr ∧ AllRead 0 tr ∧ ListenerOpen 0 tr ∧ pending 0 tr = [] := by
  let tr : Trace := [(.listen 8, .listening 0), (.connect 7, .connection 0 7), (.close, .none)]
  exact ⟨tr, _, _, exec_of_perform (as := [.listen 8, .connect 7, .close]) rfl, by decide, rfl, by decide⟩

end Rsomeip
