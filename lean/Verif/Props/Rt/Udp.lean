import Verif.Lemmas.UdpOut

/-! # C57–C60: UDP sockets -/

namespace Rsomeip

open Rt Rt.Udp Spec.Udp

/-- A history with two peers: peer 7 connects by a datagram, is accepted, and sends again; datagrams
of peer 9 find the backlog full. -/
def sampleUdp : List Action :=
  [.listen 1, .datagram 7 [1], .task, .task, .task, .task, .datagram 9 [2], .task, .task, .accept 0,
    .datagram 7 [3], .task, .task, .recv 0, .recv 0]

/-- The sample history happens as described. -/
theorem sampleUdp_trace : (perform step init sampleUdp).map Prod.fst = some
    [(.listen 1, .listening 0), (.datagram 7 [1], .none), (.task, .none),
      (.task, .admitted 7 [1] 0), (.task, .routed 7 [1] 0), (.task, .none),
      (.datagram 9 [2], .none), (.task, .none), (.task, .lost 9 [2] .backlogFull),
      (.accept 0, .connection 0 7), (.datagram 7 [3], .none), (.task, .none),
      (.task, .routed 7 [3] 0), (.recv 0, .packet [1]), (.recv 0, .packet [3])] := by
  decide +kernel

/-! ### Demultiplexing -/

/-- **C57.** Every datagram the socket has dealt with has exactly one fate, in order of arrival; at
most one is being dealt with, and none when the receiving task waits for the next one. -/
theorem C57_fates {tr : Trace} {s : State} (e : Exec step init tr s) :
    ∃ l, (fates tr).map (fun x => (x.1, x.2.1)) ++ l = arrived tr ∧ l.length ≤ 1 ∧
      (Waiting tr → l = []) := by
  refine ⟨s.pc.inflight, (exec_inv e).2.1.fate, ?_, ?_⟩
  · cases s.pc <;> simp [Pc.inflight]
  · intro h; rw [(waiting_iff e).mp h]; rfl

theorem filterMap_sublist (c : Nat) (a : Addr) (l : List (Addr × Bytes × Option Nat))
    (h : ∀ e ∈ l, e.2.2 = some c → e.1 = a) :
    (l.filterMap fun e => if e.2.2 = some c then some e.2.1 else none).Sublist
      ((l.map fun e => (e.1, e.2.1)).filterMap fun e => if e.1 = a then some e.2 else none) := by
  induction l with
  | nil => exact List.nil_sublist _
  | cons x l ih =>
    have ih := ih fun e he => h e (List.mem_cons_of_mem _ he)
    rw [List.map_cons, List.filterMap_cons, List.filterMap_cons]
    by_cases hx : x.2.2 = some c
    · rw [if_pos hx, if_pos (h x (List.mem_cons_self ..) hx)]
      exact ih.cons_cons _
    · rw [if_neg hx]
      dsimp only
      split
      · exact ih
      · exact ih.cons _

/-- **C57.** The packets put into a connection's channel are packets that came from its remote
address, in order of arrival, each at most once. -/
theorem C57_routed {tr : Trace} {s : State} (e : Exec step init tr s) (c : Nat) (a : Addr)
    (hc : (c, a) ∈ connections tr) : (into c tr).Sublist (arrivedFrom a tr) := by
  obtain ⟨_, h, _⟩ := exec_inv e
  have hp := (h.conns _ hc).2.1
  simp only [arrivedFrom, ← h.fate, List.filterMap_append]
  refine List.Sublist.trans ?_ (List.sublist_append_left _ _)
  exact filterMap_sublist c a (fates tr) fun x hx hxc => ((h.peers x hx c hxc).2.symm.trans hp)

/-- **C57.** What `recv` returned on a connection is the beginning of the sequence of packets put
into its channel, where a report `Lagged(n)` stands for exactly `n` packets missing at that place. -/
theorem C57_gaps {tr : Trace} {s : State} (e : Exec step init tr s) (c : Nat) :
    Shows (seen c tr) (into c tr) := (exec_inv e).2.1.shows c

/-- **C57.** Nothing is missing without a report: as long as the receiver is open, calling `recv` goes
on to return until every packet put into the connection has been returned or counted as missing at its
place. -/
theorem C57_complete {tr : Trace} {s : State} (e : Exec step init tr s) (c : Nat)
    (h : ReceiverOpen c tr) :
    ∃ tr' s', Exec step s tr' s' ∧ (∀ x ∈ tr', x.1 = .recv c) ∧ Shows (seen c (tr ++ tr')) (into c tr) ∧
      (seen c (tr ++ tr')).length = (into c tr).length := by
  generalize hn : (into c tr).length - (seen c tr).length = n
  induction n using Nat.strongRecOn generalizing tr s with
  | ind n ih =>
    have hle := (chan_complete e c ((receiver_open_iff e c).mp h).1).2
    by_cases ha : AllRead c tr
    · exact ⟨[], s, .nil, nofun, by rw [List.append_nil]; exact C57_gaps e c, by rw [List.append_nil]; exact ha⟩
    · obtain ⟨s₁, o, hs, h1, h2⟩ := recv_next e h ha
      have hi : into c (tr ++ [(.recv c, o)]) = into c tr := by rw [into_snoc, h2, List.append_nil]
      have hl : (seen c (tr ++ [(.recv c, o)])).length = (seen c tr).length + (seen c [(.recv c, o)]).length := by
        rw [seen_snoc, List.length_append]
      have hp := List.length_pos_iff.mpr h1
      have ho : ReceiverOpen c (tr ++ [(.recv c, o)]) := by
        refine ⟨?_, ?_⟩
        · rw [connections_snoc, List.map_append]; exact List.mem_append_left _ h.1
        · simpa using h.2
      rw [AllRead] at ha
      obtain ⟨t, s', e', k1, k2, k3⟩ := ih ((into c tr).length - (seen c (tr ++ [(.recv c, o)])).length)
        (by omega) (e.snoc hs) ho (by rw [hi])
      rw [hi, List.append_assoc] at k2 k3
      exact ⟨(.recv c, o) :: t, s', .cons hs e', by simpa using k1, k2, k3⟩

/-- **C57.** Every packet a connection returned came from that connection's remote address, and
packets come in order of arrival. -/
theorem C57_demux {tr : Trace} {s : State} (e : Exec step init tr s) (c : Nat) (a : Addr)
    (hc : (c, a) ∈ connections tr) : (got c tr).Sublist (arrivedFrom a tr) :=
  (shows_sublist _ _ (C57_gaps e c)).trans (C57_routed e c a hc)

/-- **C57.** No connection is handed out twice, so no packet is returned by two connections. -/
theorem C57_distinct {tr : Trace} {s : State} (e : Exec step init tr s) :
    ((connections tr).map Prod.fst).Nodup := (exec_inv e).2.1.connsNodup

/-- **C57.** Why a packet is thrown away: because there is no listener, it has been dropped, its
backlog is full, or the receiver (or the listener holding it) was dropped meanwhile. -/
theorem C57_losses {tr : Trace} {s s' : State} {act : Action} {a : Addr} {p : Bytes} {why : Loss}
    (e : Exec step init tr s) (h : step s act = some (s', .lost a p why)) :
    match why with
    | .noListener => ∀ l n rest, listeners tr = (l, n) :: rest → (.dropListener l, .none) ∈ tr
    | .listenerClosed => ∃ l n rest, listeners tr = (l, n) :: rest ∧ (.dropListener l, .none) ∈ tr
    | .backlogFull => ∃ l n rest, listeners tr = (l, n) :: rest ∧ (pending l tr).length = n
    | .receiverDropped => ∃ c, (.task, .admitted a p c) ∈ tr ∧ Discarded c tr := by
  obtain ⟨t, g, c⟩ := exec_inv e
  have m := move_of_step h
  cases m with
  | noListener _ _ hpc hl => exact c.none hl
  | full _ _ l hpc hl hrx hlen =>
    obtain ⟨n, rest, hn⟩ := c.latest l hl
    refine ⟨l, n, rest, hn, ?_⟩
    have h1 := (c.caps (l, n) (by rw [hn]; exact List.mem_cons_self ..)).2
    have h2 := t.bound l
    dsimp only at h1
    rw [← (queues e).queue l hrx]
    omega
  | gone _ _ l hpc hl hrx =>
    obtain ⟨n, rest, hn⟩ := c.latest l hl
    exact ⟨l, n, rest, hn, c.dropped l (t.listener l hl) hrx⟩
  | spill _ _ k hpc hrx =>
    exact ⟨k, c.queued _ _ _ hpc, (discarded_iff e (t.pc a k (by rw [hpc]; rfl)).1).mpr hrx⟩

/-- All four happen: without a listener, with a full backlog, with a listener that was dropped, and
with one that is dropped while a connection is being made for it. -/
example : (∃ s s', Exec step init [(.datagram 7 [1], .none), (.task, .none)] s ∧
      step s .task = some (s', .lost 7 [1] .noListener)) ∧
    (∃ tr s s', Exec step init tr s ∧ pending 0 tr = [(0, 7)] ∧
      step s .task = some (s', .lost 9 [2] .backlogFull)) ∧
    (∃ tr s s', Exec step init tr s ∧ step s .task = some (s', .lost 7 [1] .listenerClosed)) ∧
    ∃ tr s s', Exec step init tr s ∧ pending 0 tr = [(0, 7)] ∧ (.dropListener 0, .none) ∈ tr ∧
      step s .task = some (s', .lost 7 [1] .receiverDropped) := by
  refine ⟨⟨_, _, exec_of_perform (as := [.datagram 7 [1], .task]) rfl, rfl⟩,
    ⟨[(.listen 1, .listening 0), (.datagram 7 [1], .none), (.task, .none), (.task, .admitted 7 [1] 0),
      (.task, .routed 7 [1] 0), (.task, .none), (.datagram 9 [2], .none), (.task, .none)], _, _,
      exec_of_perform (as := sampleUdp.take 8) rfl, by decide, rfl⟩,
    ⟨_, _, _, exec_of_perform (as := [.listen 1, .dropListener 0, .datagram 7 [1], .task]) rfl, rfl⟩,
    ⟨[(.listen 1, .listening 0), (.datagram 7 [1], .none), (.task, .none), (.task, .admitted 7 [1] 0),
      (.dropListener 0, .none)], _, _,
      exec_of_perform (as := [.listen 1, .datagram 7 [1], .task, .task, .dropListener 0]) rfl, by decide,
      by decide, rfl⟩⟩

example : ∃ tr s, Exec step init tr s ∧ (0, 7) ∈ connections tr ∧ got 0 tr = [[1], [3]] ∧
    arrivedFrom 7 tr = [[1], [3]] ∧ arrivedFrom 9 tr = [[2]] := by
  have h := sampleUdp_trace
  cases hp : perform step init sampleUdp with
  | none => rw [hp] at h; cases h
  | some x =>
    obtain ⟨tr, s⟩ := x
    rw [hp] at h
    cases h
    exact ⟨_, s, exec_of_perform hp, by decide +kernel⟩

/-! ### Accepting connections -/

/-- **C58.** The backlog never exceeds the bound asked for. -/
theorem C58_bound {tr : Trace} {s : State} (e : Exec step init tr s) (l n : Nat)
    (h : (l, n) ∈ listeners tr) : (pending l tr).length ≤ n := by
  have h1 := ((exec_inv e).2.2.caps _ h).2
  have h2 := (queues e).bound l
  dsimp only at h1
  omega

/-- What a socket shows when a datagram from `a` makes connection `c`: the address is looked up, which
takes `k` steps, the connection is queued, the datagram is put into it, and the address is known from
then on. -/
def Spec.Udp.admission (k : Nat) (a : Addr) (p : Bytes) (c : Nat) : Trace :=
  (.datagram a p, .none) :: (List.replicate k (.task, .none) ++
    [(.task, .admitted a (p.take 1400) c), (.task, .routed a (p.take 1400) c), (.task, .none)])

/-- What a socket shows when a datagram from `a` is thrown away. -/
def Spec.Udp.rejection (k : Nat) (a : Addr) (p : Bytes) (why : Loss) : Trace :=
  (.datagram a p, .none) :: (List.replicate k (.task, .none) ++ [(.task, .lost a (p.take 1400) why)])

/-- Looking up an address all whose connections are gone. -/
theorem lookup_miss {tr : Trace} {s : State} (e : Exec step init tr s) (a : Addr) (p : Bytes)
    (hw : Waiting tr) (hu : ∀ c, Made tr c a → Discarded c tr) :
    ∃ k s', Exec step s ((.datagram a p, .none) :: List.replicate k (.task, .none)) s' ∧
      s'.pc = .admit a (p.take 1400) ∧ s'.listener = s.listener ∧ s'.backlogs = s.backlogs ∧
      s'.chans = s.chans ∧ s'.chanCount = s.chanCount ∧
      ((∀ c, ¬ Made tr c a) → k = 1 ∧ s' = { s with pc := .admit a (p.take 1400) }) := by
  have hpc := (waiting_iff e).mp hw
  have h0 : step s (.datagram a p) = some ({ s with pc := .lookup a (p.take 1400) }, .none) := by
    simp only [step, hpc, if_true]; rfl
  cases hg : s.receivers.get a with
  | none =>
    have h1 : step { s with pc := .lookup a (p.take 1400) } .task =
        some ({ s with pc := .admit a (p.take 1400) }, .none) := by simp only [step, task, hg]
    exact ⟨1, _, .cons h0 (.cons h1 .nil), rfl, rfl, rfl, rfl, rfl, fun _ => ⟨rfl, rfl⟩⟩
  | some c =>
    obtain ⟨hc, hp⟩ := (exec_inv e).1.receivers _ (Map.mem_of_get hg)
    have hm : Made tr c a := by
      have := chan_made e hc
      rw [hp] at this
      exact this
    have hrx := (discarded_iff e hc).mp (hu c hm)
    have h1 : step { s with pc := .lookup a (p.take 1400) } .task =
        some ({ s with pc := .found a (p.take 1400) c }, .none) := by simp only [step, task, hg]
    have h2 : step { s with pc := .found a (p.take 1400) c } .task =
        some ({ s with pc := .stale a (p.take 1400) }, .none) := by simp [step, task, hrx]
    have h3 : step { s with pc := .stale a (p.take 1400) } .task =
        some ({ s with receivers := (s.receivers.remove a).2, pc := .admit a (p.take 1400) }, .none) := by
      simp only [step, task]
    exact ⟨3, _, .cons h0 (.cons h1 (.cons h2 (.cons h3 .nil))), rfl, rfl, rfl, rfl, rfl,
      fun h => absurd hm (h c)⟩

theorem offer_tasks (l k : Nat) (st : Option Nat × List (Nat × Addr)) :
    (List.replicate k (.task, .none)).foldl (offerStep l) st = st := by
  induction k with
  | zero => rfl
  | succ k ih => rw [List.replicate_succ, List.foldl_cons]; exact ih

/-- **C58.** The receiving task waits for the next datagram, and there is a listener with room in its
backlog. Then a datagram from an address that has no connection, or had some whose receivers were all
dropped, makes exactly one pending connection, a new one, which has that datagram and nothing else;
no other connection gets anything, no other backlog changes, and the next datagram of the address is
put into the same connection. -/
theorem C58_admitted {tr : Trace} {s : State} (e : Exec step init tr s) (a : Addr) (p : Bytes)
    {l n : Nat} {rest : List (Nat × Nat)} (hw : Waiting tr) (hu : ∀ c, Made tr c a → Discarded c tr)
    (hl : listeners tr = (l, n) :: rest) (hd : (.dropListener l, .none) ∉ tr)
    (hroom : (pending l tr).length < n) :
    ∃ k c s', Exec step s (admission k a p c) s' ∧ (∀ b, ¬ Made tr c b) ∧
      pending l (tr ++ admission k a p c) = pending l tr ++ [(c, a)] ∧
      (∀ l', l' ≠ l → pending l' (tr ++ admission k a p c) = pending l' tr) ∧
      into c (tr ++ admission k a p c) = [p.take 1400] ∧
      (∀ c', c' ≠ c → into c' (tr ++ admission k a p c) = into c' tr) ∧
      Waiting (tr ++ admission k a p c) ∧
      ∀ q, ∃ s'', Exec step s' [(.datagram a q, .none), (.task, .none), (.task, .routed a (q.take 1400) c)] s'' := by
  obtain ⟨k, s₁, e₁, h1, h2, h3, h4, h5, -⟩ := lookup_miss e a p hw hu
  obtain ⟨t, g, cl⟩ := exec_inv e
  have hli := listener_eq e hl hd
  have hlo : ListenerOpen l tr := ⟨by rw [hl]; exact List.mem_cons_self .., hd⟩
  have hrx := (listener_open_iff e l).mp hlo
  have hcap : (s.backlogs l).cap = n := (cl.caps (l, n) (by rw [hl]; exact List.mem_cons_self ..)).2
  have hlen : (s.backlogs l).queue.length < (s.backlogs l).cap := by
    rw [(queues e).queue l hrx, hcap]; exact hroom
  have k1 : step s₁ .task = some
      ({ s₁ with
          chans := upd s.chans s.chanCount ⟨a, 32, [], 0, true, false⟩
          chanCount := s.chanCount + 1
          backlogs := upd s.backlogs l
            { s.backlogs l with queue := (s.backlogs l).queue ++ [(s.chanCount, a)] }
          pc := .queued a (p.take 1400) s.chanCount },
        .admitted a (p.take 1400) s.chanCount) := by
    simp only [step, task, h1, admit, h2, hli, h3, h4, h5, hrx, hlen, if_true]
  obtain ⟨s₂, hs₂⟩ : ∃ x, x = { s₁ with
          chans := upd s.chans s.chanCount ⟨a, 32, [], 0, true, false⟩
          chanCount := s.chanCount + 1
          backlogs := upd s.backlogs l
            { s.backlogs l with queue := (s.backlogs l).queue ++ [(s.chanCount, a)] }
          pc := .queued a (p.take 1400) s.chanCount } := ⟨_, rfl⟩
  rw [← hs₂] at k1
  have k2 : step s₂ .task = some
      ({ s₂ with
          chans := upd s₂.chans s.chanCount ⟨a, 32, [p.take 1400], 0, true, false⟩
          pc := .filled a s.chanCount },
        .routed a (p.take 1400) s.chanCount) := by
    simp [step, task, hs₂, upd_same, Chan.push]
  obtain ⟨s₃, hs₃⟩ : ∃ x, x = { s₂ with
          chans := upd s₂.chans s.chanCount ⟨a, 32, [p.take 1400], 0, true, false⟩
          pc := .filled a s.chanCount } := ⟨_, rfl⟩
  rw [← hs₃] at k2
  have k3 : step s₃ .task = some
      ({ s₃ with receivers := (s₃.receivers.insert a s.chanCount).2, pc := .idle }, .none) := by
    simp only [step, task, hs₃]
  obtain ⟨s₄, hs₄⟩ : ∃ x, x =
      { s₃ with receivers := (s₃.receivers.insert a s.chanCount).2, pc := .idle } := ⟨_, rfl⟩
  rw [← hs₄] at k3
  have e₄ : Exec step s (admission k a p s.chanCount) s₄ := by
    have := e₁.append (.cons k1 (.cons k2 (.cons k3 .nil)))
    simpa [admission] using this
  have hfresh : ∀ b, ¬ Made tr s.chanCount b := fun b hb =>
    absurd (made_peer e hb).1 (Nat.lt_irrefl _)
  have hzero : into s.chanCount tr = [] := by
    rw [into, List.filterMap_eq_nil_iff]
    intro x hx
    rw [if_neg]
    intro h
    exact absurd (g.peers x hx _ h).1 (Nat.lt_irrefl _)
  have hoff : ∀ l', offered l' (tr ++ admission k a p s.chanCount) = offered l' tr ++
      if l' = l then [(s.chanCount, a)] else [] := by
    intro l'
    have hla := (queues e).latest l'
    rw [hl] at hla
    simp only [offered, List.foldl_append, admission, List.foldl_cons, offer_tasks, List.foldl_nil]
    generalize tr.foldl (offerStep l') (none, []) = st at hla
    obtain ⟨m, q⟩ := st
    dsimp only [List.head?_cons, Option.map_some] at hla
    subst hla
    simp only [offerStep, Option.some.injEq]
    by_cases h : l' = l
    · subst h; simp
    · rw [if_neg (Ne.symm h), if_neg h, List.append_nil]
  have htak : ∀ l', takenFrom l' (tr ++ admission k a p s.chanCount) = takenFrom l' tr := by
    intro l'
    simp [takenFrom, admission, List.filterMap_append]
  have hpen : ∀ l', pending l' (tr ++ admission k a p s.chanCount) = pending l' tr ++
      if l' = l then [(s.chanCount, a)] else [] := by
    intro l'
    rw [pending, pending, hoff, htak, List.drop_append_of_le_length ((queues e).split l').length_le]
  have hint : ∀ c', into c' (tr ++ admission k a p s.chanCount) = into c' tr ++
      if c' = s.chanCount then [p.take 1400] else [] := by
    intro c'
    simp only [into, fates, admission, List.filterMap_append, List.filterMap_cons, List.filterMap_nil,
      List.filterMap_replicate_of_none]
    by_cases h : c' = s.chanCount
    · subst h; simp
    · rw [if_neg (by simp [Ne.symm h]), if_neg h]; simp
  refine ⟨k, s.chanCount, s₄, e₄, hfresh, by rw [hpen, if_pos rfl], fun l' h => by
    rw [hpen, if_neg h, List.append_nil], by rw [hint, hzero, if_pos rfl]; rfl, fun c' h => by
    rw [hint, if_neg h, List.append_nil], (waiting_iff (e.append e₄)).mpr (by rw [hs₄]), ?_⟩
  intro q
  have hget : s₄.receivers.get a = some s.chanCount := by
    rw [hs₄]; exact (Map.get_insert ..).trans (if_pos rfl)
  have hrx4 : (s₄.chans s.chanCount).rx = true := by simp only [hs₄, hs₃, upd_same]
  have j1 : step s₄ (.datagram a q) = some ({ s₄ with pc := .lookup a (q.take 1400) }, .none) := by
    simp only [step, hs₄, if_true]; rfl
  have j2 : step { s₄ with pc := .lookup a (q.take 1400) } .task =
      some ({ s₄ with pc := .found a (q.take 1400) s.chanCount }, .none) := by
    simp only [step, task, hget]
  have j3 : ∃ s', step { s₄ with pc := .found a (q.take 1400) s.chanCount } .task =
      some (s', .routed a (q.take 1400) s.chanCount) := ⟨_, by simp only [step, task, hrx4, if_true]; rfl⟩
  obtain ⟨s', j3⟩ := j3
  exact ⟨s', .cons j1 (.cons j2 (.cons j3 .nil))⟩

/-- There is no listener that could take another connection: none was made, or the newest one was
dropped or has a full backlog. -/
def Spec.Udp.NoRoom (tr : Trace) : Prop :=
  ∀ l n rest, listeners tr = (l, n) :: rest → (.dropListener l, .none) ∈ tr ∨ n ≤ (pending l tr).length

/-- **C58.** With a full backlog, or without a listener, a datagram from an address without a
connection is thrown away: it gets into no connection, and no backlog changes. -/
theorem C58_refused {tr : Trace} {s : State} (e : Exec step init tr s) (a : Addr) (p : Bytes)
    (hw : Waiting tr) (hu : ∀ c, Made tr c a → Discarded c tr) (hn : NoRoom tr) :
    ∃ k why s', Exec step s (rejection k a p why) s' ∧ Waiting (tr ++ rejection k a p why) ∧
      ∀ l, pending l (tr ++ rejection k a p why) = pending l tr := by
  obtain ⟨k, s₁, e₁, h1, h2, h3, h4, h5, -⟩ := lookup_miss e a p hw hu
  obtain ⟨t, g, cl⟩ := exec_inv e
  have hlast : ∃ why s', step s₁ .task = some (s', .lost a (p.take 1400) why) ∧ s'.pc = .idle := by
    simp only [step, task, h1, admit, h2, h3]
    cases hl : s.listener with
    | none => exact ⟨_, _, rfl, rfl⟩
    | some l =>
      dsimp only
      obtain ⟨n, rest, hr⟩ := cl.latest l hl
      split
      · rename_i hrx
        have hd : (.dropListener l, .none) ∉ tr := ((listener_open_iff e l).mpr hrx).2
        have hcap : (s.backlogs l).cap = n := (cl.caps (l, n) (by rw [hr]; exact List.mem_cons_self ..)).2
        have hge := (hn l n rest hr).resolve_left hd
        rw [if_neg (by rw [(queues e).queue l hrx, hcap]; omega)]
        exact ⟨_, _, rfl, rfl⟩
      · exact ⟨_, _, rfl, rfl⟩
  obtain ⟨why, s', hs, hi⟩ := hlast
  have e₂ : Exec step s (rejection k a p why) s' := by
    have := e₁.append (.cons hs .nil)
    simpa [rejection] using this
  refine ⟨k, why, s', e₂, (waiting_iff (e.append e₂)).mpr hi, fun l => ?_⟩
  have hoff : offered l (tr ++ rejection k a p why) = offered l tr := by
    simp only [offered, List.foldl_append, rejection, List.foldl_cons, offer_tasks, List.foldl_nil, offerStep]
  have htak : takenFrom l (tr ++ rejection k a p why) = takenFrom l tr := by
    simp [takenFrom, rejection, List.filterMap_append]
  rw [pending, pending, hoff, htak]

/-- **C58.** If in addition the address never had a connection, and there was never a listener or its
backlog is full, nothing at all changes. -/
theorem C58_unchanged {tr : Trace} {s : State} (e : Exec step init tr s) (a : Addr) (p : Bytes)
    (hw : Waiting tr) (hu : ∀ c, ¬ Made tr c a)
    (hn : listeners tr = [] ∨ ∃ l n rest, listeners tr = (l, n) :: rest ∧
      (.dropListener l, .none) ∉ tr ∧ n ≤ (pending l tr).length) :
    ∃ why, Exec step s (rejection 1 a p why) s := by
  obtain ⟨k, s₁, e₁, h1, -, -, -, -, h6⟩ := lookup_miss e a p hw fun c hc => absurd hc (hu c)
  obtain ⟨rfl, rfl⟩ := h6 hu
  obtain ⟨t, g, cl⟩ := exec_inv e
  have hpc := (waiting_iff e).mp hw
  have hs : { s with pc := .idle } = s := by rw [← hpc]
  have hlast : ∃ why, step { s with pc := .admit a (p.take 1400) } .task =
      some (s, .lost a (p.take 1400) why) := by
    simp only [step, task, admit]
    rcases hn with hn | ⟨l, n, rest, hr, hd, hge⟩
    · have : s.listener = none := by
        cases hl : s.listener with
        | none => rfl
        | some l =>
          obtain ⟨n, rest, hr⟩ := cl.latest l hl
          rw [hn] at hr; cases hr
      rw [this]
      exact ⟨.noListener, by dsimp only; rw [this] at hs; rw [hs]⟩
    · have hl := listener_eq e hr hd
      have hrx := (listener_open_iff e l).mp ⟨by rw [hr]; exact List.mem_cons_self .., hd⟩
      have hcap : (s.backlogs l).cap = n := (cl.caps (l, n) (by rw [hr]; exact List.mem_cons_self ..)).2
      have hlen : ¬ (s.backlogs l).queue.length < (s.backlogs l).cap := by
        rw [(queues e).queue l hrx, hcap]; omega
      exact ⟨.backlogFull, by simp only [hl, hrx, hlen, if_true, if_false]; rw [hl] at hs; rw [hs]⟩
  obtain ⟨why, hlast⟩ := hlast
  have := e₁.append (.cons hlast .nil)
  exact ⟨why, by simpa [rejection] using this⟩

/-- **C58.** Whatever happens in between: the first packet put into a new connection is the one that
made it (unless the user drops the receiver before), and `accept` only returns connections made by a
packet of the address it reports. -/
theorem C58_first_packet {tr : Trace} {s : State} (e : Exec step init tr s) :
    (∀ a p c, (.task, .admitted a p c) ∈ tr → Waiting tr → ¬ Discarded c tr →
      ∃ rest, into c tr = p :: rest) ∧
    (∀ l c a, (.accept l, .connection c a) ∈ tr →
      ∃ p, (.task, .admitted a p c) ∈ tr ∧ p ∈ arrivedFrom a tr) := by
  obtain ⟨t, g, c⟩ := exec_inv e
  refine ⟨?_, ?_⟩
  · intro a p k hm hw hrx
    obtain ⟨h0, ⟨_, h | h⟩ | h⟩ := c.admitted a p k hm
    · rw [(waiting_iff e).mp hw] at h; cases h
    · exact absurd ((discarded_iff e h0).mpr h) hrx
    · exact h
  · intro l k a hm
    obtain ⟨p, hp⟩ := c.accepted l k a hm
    exact ⟨p, hp, List.mem_filterMap.mpr ⟨(a, p), c.arrived a p k hp, by simp⟩⟩

/-- **C58.** A backlog of zero is not refused with an error: the call panics. -/
theorem C58_zero_backlog_panics {tr : Trace} {s : State} (e : Exec step init tr s)
    (ho : (.close, .none) ∉ tr) : step s (.listen 0) = some (s, .panic) := by
  have : s.owner = true := by
    cases h : s.owner with
    | true => rfl
    | false => exact absurd ((closed_iff e).mpr h) ho
  simp [step, listen, this]

/-- A listener and no connections. -/
example : ∃ s, Exec step init [(.listen 1, .listening 0)] s ∧ Waiting [(.listen 1, .listening 0)] ∧
    (∀ c, ¬ Made [(.listen 1, .listening 0)] c 7) ∧
    listeners [(.listen 1, .listening 0)] = [(0, 1)] ∧ (pending 0 [(.listen 1, .listening 0)]).length < 1 ∧
    (Action.close, Obs.none) ∉ [(.listen 1, .listening 0)] :=
  ⟨_, exec_of_perform (as := [.listen 1]) rfl, by decide, by simp [Made], by decide, by decide, by decide⟩

/-- An address whose only connection was dropped; then its backlog is full for another address. -/
example : ∃ tr s, Exec step init tr s ∧ Waiting tr ∧ Made tr 0 7 ∧ Discarded 0 tr ∧
    listeners tr = [(0, 1)] ∧ pending 0 tr = [(1, 7)] ∧ (∀ c, ¬ Made tr c 9) ∧
    into 1 tr = [[2]] ∧ ¬ Discarded 1 tr := by
  let tr : Trace := [(.connect 7, .connection 0 7), (.dropReceiver 0, .none), (.listen 1, .listening 0),
    (.datagram 7 [2], .none), (.task, .none), (.task, .none), (.task, .none), (.task, .admitted 7 [2] 1),
    (.task, .routed 7 [2] 1), (.task, .none)]
  refine ⟨tr, _, exec_of_perform (as := [.connect 7, .dropReceiver 0, .listen 1, .datagram 7 [2], .task,
    .task, .task, .task, .task, .task]) rfl, by decide, .inl (by decide), .inl (by decide), by decide,
    by decide, by simp [Made, tr], by decide, ?_⟩
  rintro (h | ⟨l, -, h⟩) <;> simp [tr] at h

/-! ### Size limit -/

/-- **C59.** A buffer is handed to the operating system if and only if it has at most 1400 bytes, and
then unchanged; otherwise it is returned unchanged. Success is reported only after handing it over,
and a failure returns the buffer. -/
theorem C59_size_limit (os : Bytes → Bool) (b : Bytes) :
    ((send os b).1 = some b ↔ b.length ≤ 1400) ∧
    ((send os b).1 = none ↔ 1400 < b.length) ∧
    (1400 < b.length → (send os b).2 = .error b) ∧
    ((send os b).2 = .ok () ↔ b.length ≤ 1400 ∧ os b = true) ∧
    (∀ x, (send os b).2 = .error x → x = b) := by
  simp only [send, maxDatagramSize]
  by_cases h : b.length > 1400
  · simp [h]
    omega
  · cases ho : os b <;> simp [h] <;> omega

example : ∃ b : Bytes, b.length ≤ 1400 ∧ ∃ b' : Bytes, 1400 < b'.length :=
  ⟨[1], by decide, List.replicate 1401 0, by rw [List.length_replicate]; omega⟩

/-! ### Connecting again -/

/-- **C60** fails: connecting to an address again, while the receiving task is not dealing with a
packet from there, cuts the existing connections off. As soon as everything put into it before has been
read, an older connection reports being closed. -/
theorem C60_second_connect_closes {tr : Trace} {s : State} (e : Exec step init tr s) (a : Addr)
    (c : Nat) (ho : (.close, .none) ∉ tr) (hb : busy tr ≠ some a) (hm : Made tr c a)
    (hr : ReceiverOpen c tr) (hq : AllRead c tr) :
    ∃ c' s', perform step s [.connect a, .recv c] = some
      ([(.connect a, .connection c' a), (.recv c, .closed)], s') := by
  have hown : s.owner = true := by
    cases h : s.owner with
    | true => rfl
    | false => exact absurd ((closed_iff e).mpr h) ho
  obtain ⟨hrx, hh⟩ := (receiver_open_iff e c).mp hr
  obtain ⟨hq1, hq2⟩ := (all_read_iff e hrx).mp hq
  obtain ⟨hc, hp⟩ := made_peer e hm
  have hconn : step s (.connect a) = some
      ({ s with
        chans := upd s.chans s.chanCount ⟨a, 8, [], 0, true, true⟩
        chanCount := s.chanCount + 1
        receivers := (s.receivers.insert a s.chanCount).2 }, .connection s.chanCount a) := by
    simp [step, connect, hown]
  rw [busy_eq e] at hb
  have hs := (out_of_connect (exec_inv e).1 hc hp hb hconn).sender
  generalize hs' : { s with
        chans := upd s.chans s.chanCount ⟨a, 8, [], 0, true, true⟩
        chanCount := s.chanCount + 1
        receivers := (s.receivers.insert a s.chanCount).2 } = s' at hconn hs
  have hch : s'.chans c = s.chans c := by rw [← hs']; exact upd_ne _ _ (Nat.ne_of_lt hc)
  have hrecv : step s' (.recv c) = some (s', .closed) := by
    have : c < s'.chanCount := by rw [← hs']; exact Nat.lt_succ_of_lt hc
    simp [step, recv, hch, hrx, hh, hq1, hq2, hs, this]
  exact ⟨s.chanCount, s', by simp [perform, hconn, hrecv]⟩

/-- **C60**, the part that holds: take a connection to `a` that `connect` made while the receiving task
was not dealing with a packet of `a`. Until `connect` is called for `a` again, or the receiver is
dropped, and unless the socket is dropped and reading fails, it is never closed, and every packet from
`a` goes to it. What is missing: a second `connect` to the same address, and a `connect` while a packet
of that address is being dealt with (`C60_race`). -/
theorem C60_keeps_working_partial {t u : Trace} {s : State} {a : Addr} {c : Nat}
    (e : Exec step init (t ++ (.connect a, .connection c a) :: u) s) (hb : busy t ≠ some a)
    (h1 : ∀ x ∈ u, x.1 ≠ .connect a) (h2 : ∀ x ∈ u, x.1 ≠ .dropReceiver c)
    (h3 : (.close, .none) ∉ u ∨ (.failure, .none) ∉ t ++ u) :
    (.recv c, .closed) ∉ u ∧ (∀ x ∈ fates u, x.1 = a → x.2.2 = some c) ∧
      (Waiting (t ++ (.connect a, .connection c a) :: u) → ∀ q, ∃ s', Exec step s
        [(.datagram a q, .none), (.task, .none), (.task, .routed a (q.take 1400) c)] s') := by
  refine ⟨fun hm => ?_, fun x hx hxa => ?_, fun hw q => ?_⟩
  · obtain ⟨u₁, u₂, s₁, s₂, rfl, e₁, k, m⟩ := kept_at e hb h1 h2 hm
    refine kept_open k ?_ m rfl
    cases hsh : s₁.shared with
    | true => rfl
    | false =>
      obtain ⟨k1, k2⟩ := unshared e₁ hsh
      obtain ⟨s₀, e₀, e₀'⟩ := e₁.split
      have hown : (.close, .none) ∉ t := by
        intro h
        have := (closed_iff e₀).mp h
        obtain ⟨s', hc, -⟩ := Exec.split (t := [(Action.connect a, Obs.connection c a)]) e₀'
        obtain ⟨s'', hn, hc⟩ := Exec.last (tr := []) hc
        cases move_of_step hc with
        | connect _ ho =>
          generalize hz : ([] : Trace) = z at hn
          cases hn with
          | nil => rw [this] at ho; cases ho
          | snoc => simp at hz
      simp only [List.mem_append, List.mem_cons, Prod.mk.injEq, reduceCtorEq, false_and, false_or] at k1 k2 h3
      rcases h3 with h3 | h3
      · exact (h3 (.inl (k1.resolve_left hown))).elim
      · exact (h3 (k2.imp_right .inl)).elim
  · obtain ⟨y, hy, hyx⟩ := List.mem_filterMap.mp hx
    obtain ⟨u₁, u₂, s₁, s₂, -, -, k, m⟩ := kept_at e hb h1 h2 hy
    exact kept_fate k m x (List.mem_filterMap.mpr ⟨y, List.mem_singleton_self _, hyx⟩) hxa
  · have k := kept_exec e hb h1 h2
    have hpc := (waiting_iff e).mp hw
    have j1 : step s (.datagram a q) = some ({ s with pc := .lookup a (q.take 1400) }, .none) := by
      simp only [step, hpc, if_true]; rfl
    have j2 : step { s with pc := .lookup a (q.take 1400) } .task =
        some ({ s with pc := .found a (q.take 1400) c }, .none) := by
      simp only [step, task, k.registered]
    have j3 : ∃ s', step { s with pc := .found a (q.take 1400) c } .task =
        some (s', .routed a (q.take 1400) c) := ⟨_, by simp only [step, task, k.rx, if_true]; rfl⟩
    obtain ⟨s', j3⟩ := j3
    exact ⟨s', .cons j1 (.cons j2 (.cons j3 .nil))⟩

/-- A connection that goes on working while a packet of another address is lost; the next one closes
it. -/
example : ∃ s, Exec step init ([(.datagram 9 [4], .none)] ++ (.connect 7, .connection 0 7) ::
      [(.task, .none), (.task, .lost 9 [4] .noListener), (.datagram 7 [1], .none), (.task, .none),
        (.task, .routed 7 [1] 0), (.recv 0, .packet [1])]) s ∧ busy [(.datagram 9 [4], .none)] ≠ some 7 :=
  ⟨_, exec_of_perform (as := [.datagram 9 [4], .connect 7, .task, .task, .datagram 7 [1], .task, .task,
    .recv 0]) rfl, by decide⟩

/-- **C60** also fails without a second connection: if the only connection to an address was
dropped, a packet of that address is being dealt with, and the user connects again at that moment,
the new connection is removed instead of the old one and reports being closed. -/
theorem C60_race : ∃ s', perform step init
    [.connect 7, .dropReceiver 0, .datagram 7 [1], .task, .task, .connect 7, .task, .recv 1] =
      some ([(.connect 7, .connection 0 7), (.dropReceiver 0, .none), (.datagram 7 [1], .none),
        (.task, .none), (.task, .none), (.connect 7, .connection 1 7), (.task, .none),
        (.recv 1, .closed)], s') :=
  ⟨_, rfl⟩

/-- A connection all of whose packets have been read. -/
example : ∃ tr s, Exec step init tr s ∧ (.close, .none) ∉ tr ∧ busy tr ≠ some 7 ∧ Made tr 0 7 ∧
    ReceiverOpen 0 tr ∧ AllRead 0 tr ∧ got 0 tr = [[1]] := by
  let tr : Trace := [(.connect 7, .connection 0 7), (.datagram 7 [1], .none), (.task, .none),
    (.task, .routed 7 [1] 0), (.recv 0, .packet [1])]
  exact ⟨tr, _, exec_of_perform (as := [.connect 7, .datagram 7 [1], .task, .task, .recv 0]) rfl, by decide,
    by decide, .inl (by decide), ⟨by decide, by decide⟩, by decide, by decide⟩

end Rsomeip
