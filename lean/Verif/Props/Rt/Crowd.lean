import Verif.Props.Rt.Udp
import Verif.Props.Rt.NodeCut

/-! # C114: one peer's traffic does not cost another's -/

namespace Rsomeip

open Rt

namespace Rt.Udp

open Spec.Udp

/-- A channel that has lost packets is full, and has room for eight at least. -/
def Roomy (s : State) : Prop := ∀ c, c < s.chanCount → 8 ≤ (s.chans c).cap ∧
  ((s.chans c).rx = true → 0 < (s.chans c).missed → (s.chans c).queue.length = (s.chans c).cap)

theorem Chan.push_roomy (c : Chan) (p : Bytes) (h8 : 8 ≤ c.cap) (hl : c.queue.length ≤ c.cap)
    (h : 0 < c.missed → c.queue.length = c.cap) :
    8 ≤ (c.push p).cap ∧ (0 < (c.push p).missed → (c.push p).queue.length = (c.push p).cap) := by
  unfold Chan.push
  split <;> rename_i h'
  · refine ⟨h8, fun hm => ?_⟩
    have := h hm
    omega
  · refine ⟨h8, fun _ => ?_⟩
    simp only [List.length_append, List.length_drop, List.length_singleton]
    omega

theorem exec_roomy {tr : Trace} {s : State} (e : Exec step init tr s) : Roomy s := by
  induction e with
  | nil => intro c hc; cases hc
  | snoc e h ih =>
    have t := (exec_inv e).1
    have m := move_of_step h
    intro c hc
    have hcap := t.caps c
    have hi := ih c
    cases m
    case deliver a p d hpc hrx =>
      have hd := t.pc a d (by rw [hpc]; rfl)
      by_cases hcd : c = d
      · subst hcd
        have := Chan.push_roomy _ p (hi hd.1).1 (hcap hd.1).2 ((hi hd.1).2 hrx)
        simp only [upd_same, Chan.push_rx]
        exact ⟨this.1, fun _ => this.2⟩
      · simp only [upd_ne _ _ hcd]
        exact hi hc
    case fill a p d hpc hrx =>
      have hd := t.pc a d (by rw [hpc]; rfl)
      by_cases hcd : c = d
      · subst hcd
        have := Chan.push_roomy _ p (hi hd.1).1 (hcap hd.1).2 ((hi hd.1).2 hrx)
        simp only [upd_same, Chan.push_rx]
        exact ⟨this.1, fun _ => this.2⟩
      · simp only [upd_ne _ _ hcd]
        exact hi hc
    all_goals grind [upd]

theorem rx_back {s s' : State} {u : Trace} {c : Nat} (e : Exec step s u s') (hc : c < s.chanCount) :
    c < s'.chanCount ∧ ((s'.chans c).rx = true → (s.chans c).rx = true) := by
  induction e with
  | nil => exact ⟨hc, id⟩
  | snoc e h' ih =>
    have m := move_of_step h'
    obtain ⟨h1, h2⟩ := ih
    refine ⟨?_, fun h => h2 ?_⟩
    · cases m <;> first | exact h1 | exact Nat.lt_succ_of_lt h1
    · cases m <;> grind [upd, Chan.push_rx]

end Rt.Udp

section

open Rt.Udp Spec.Udp

theorem arrivedFrom_append (a : Addr) (t u : Trace) :
    arrivedFrom a (t ++ u) = arrivedFrom a t ++ arrivedFrom a u := by
  simp only [arrivedFrom, arrived, List.filterMap_append]

/-- In every stretch of a history, at most one packet more is put into the channel of a connection than
arrives from its remote. -/
theorem into_arrived {t u : Trace} {s s' : State} {c : Nat} {a : Addr} (e : Exec step init t s)
    (hc : (c, a) ∈ connections t) (e' : Exec step s u s') :
    (into c u).length ≤ (arrivedFrom a u).length + 1 := by
  obtain ⟨-, h1, -⟩ := exec_inv e
  obtain ⟨-, h2, -⟩ := exec_inv (e.append e')
  have hf : (fates u).map (fun x => (x.1, x.2.1)) ++ s'.pc.inflight = s.pc.inflight ++ arrived u := by
    have h3 := h2.fate
    rw [show fates (t ++ u) = fates t ++ fates u from List.filterMap_append,
      show arrived (t ++ u) = arrived t ++ arrived u from List.filterMap_append, ← h1.fate,
      List.map_append, List.append_assoc, List.append_assoc] at h3
    exact List.append_cancel_left h3
  have hp := (h2.conns (c, a) (by
    rw [show connections (t ++ u) = connections t ++ connections u from List.filterMap_append]
    exact List.mem_append_left _ hc)).2.1
  have hs := filterMap_sublist c a (fates u) fun x hx hxc => ((h2.peers x (by
    rw [show fates (t ++ u) = fates t ++ fates u from List.filterMap_append]
    exact List.mem_append_right _ hx) c hxc).2.symm.trans hp)
  have hl := hs.length_le
  have hg := congrArg (fun l => (l.filterMap fun e : Addr × Bytes =>
    if e.1 = a then some e.2 else none).length) hf
  simp only [List.filterMap_append, List.length_append] at hg
  have h4 : (s.pc.inflight.filterMap fun e : Addr × Bytes =>
      if e.1 = a then some e.2 else none).length ≤ 1 := by
    refine (List.length_filterMap_le _ _).trans ?_
    cases s.pc <;> simp [Pc.inflight]
  have h5 : (arrivedFrom a u).length = ((arrived u).filterMap fun e : Addr × Bytes =>
    if e.1 = a then some e.2 else none).length := rfl
  have h6 : (into c u).length = ((fates u).filterMap fun e =>
    if e.2.2 = some c then some e.2.1 else none).length := rfl
  omega

/-- **C114**, the part that holds, at the socket: a connection loses packets only if at least eight more
have come from its own remote since it had read all there was. What others send makes no difference, nor
does anything else that happens. Missing: above the socket all peers share the queues of the interfaces
(`C114_false`). -/
theorem C114_socket_partial {t u : Trace} {s s' : State} {c n : Nat} {a : Addr}
    (e : Exec step init t s) (hc : (c, a) ∈ connections t) (hw : step s (.recv c) = none)
    (e' : Exec step s u s') (h : (.recv c, .lagged n) ∈ u) : 8 ≤ (arrivedFrom a u).length := by
  obtain ⟨u₁, u₂, rfl⟩ := List.append_of_mem h
  obtain ⟨s₁, e₁, e₂⟩ := e'.split
  obtain ⟨s₂, e₂, -⟩ := Exec.split (t := [_]) e₂
  have hl : step s₁ (.recv c) = some (s₂, .lagged n) := by
    obtain ⟨_, h1, h2⟩ := Exec.last (tr := []) e₂
    generalize hn : ([] : Trace) = l at h1
    cases h1 with
    | nil => exact h2
    | snoc => simp at hn
  obtain ⟨h1, -, h2⟩ := (exec_inv e).2.1.conns _ hc
  obtain ⟨h3, h4⟩ := rx_back e₁ h1
  have hm : (s₁.chans c).rx = true ∧ 0 < (s₁.chans c).missed := by
    have m := move_of_step hl
    generalize hx : Action.recv c = x at m
    cases m <;> cases hx
    exact ⟨‹_›, ‹_›⟩
  have hrx := h4 hm.1
  have hz : (s.chans c).missed = 0 ∧ (s.chans c).queue = [] := by
    simp only [step, recv] at hw
    rw [if_pos ⟨h1, hrx, h2⟩] at hw
    split at hw
    · cases hw
    · refine ⟨by omega, ?_⟩
      split at hw
      · cases hw
      · assumption
  have r := exec_roomy (e.append e₁) c h3
  have q := r.2 hm.1 hm.2
  have c1 := (Rt.Udp.chan_complete e c hrx).2
  have c2 := (Rt.Udp.chan_complete (e.append e₁) c hm.1).2
  rw [hz.1, hz.2] at c1
  rw [show seen c (t ++ u₁) = seen c t ++ seen c u₁ from List.flatMap_append,
    show into c (t ++ u₁) = into c t ++ into c u₁ by
      simp only [into, fates, List.filterMap_append], List.length_append, List.length_append] at c2
  simp only [List.length_nil] at c1
  have := into_arrived e hc e₁
  rw [arrivedFrom_append, List.length_append]
  omega

/-- A packet is on its way to the connection when it waits. Eight more come, and one is lost: the number
eight is the smallest possible. -/
example : ∃ t s u s', Exec step init t s ∧ (0, 7) ∈ connections t ∧ step s (.recv 0) = none ∧
    Exec step s u s' ∧ (.recv 0, .lagged 1) ∈ u ∧ (arrivedFrom 7 u).length = 8 := by
  obtain ⟨t, s, e, h⟩ := exec_by (step := step) (s := init) [.connect 7, .datagram 7 [1]]
    (fun t s => decide ((0, 7) ∈ connections t ∧ (step s (.recv 0)).isNone = true) &&
      match perform step s ([.task, .task] ++ (List.replicate 8 [.datagram 7 [2], .task, .task]).flatten ++
        [.recv 0]) with
      | some (u, _) => decide ((.recv 0, .lagged 1) ∈ u ∧ (arrivedFrom 7 u).length = 8)
      | none => false) (by decide +kernel)
  rw [Bool.and_eq_true] at h
  obtain ⟨h1, h2⟩ := of_decide_eq_true h.1
  have h := h.2
  split at h
  · rename_i u s' h3
    obtain ⟨h4, h5⟩ := of_decide_eq_true h
    exact ⟨t, s, u, s', e, h1, Option.isNone_iff_eq_none.mp h2, exec_of_perform h3, h4, h5⟩
  · cases h

end

open Rt.Node Spec Spec.Node Someip

namespace Spec.Node

/-- The `i`-th message for the proxy of `twoRemotes`. -/
def numbered (i : Nat) : Msg := { Ep.msgB with session := i.toUInt16 }

/-- Proxies for different interfaces at two remotes. -/
def twoRemotes : List Node.Action :=
  twoProxies.take 8 ++ [.app (.proxy ⟨1, 1⟩ 8), .app (.ep true), .app (.ep true), .app (.ep true),
    .app (.ep true), .app (.ep true), .app (.ep true), .app (.connCmd 1)]

/-- A datagram with seventeen messages. -/
def heap : Bytes := (List.replicate 17 (frame Ep.msgB)).flatten

/-- The remote of the second proxy sends them, for the first one: sixteen fill its queue. -/
def crowd : List Node.Action :=
  [.datagram 8 heap, .task, .task, .app (.packet 1 (.packet heap))] ++
    List.replicate 33 (.app (.route 1))

/-- The remote of the first proxy sends ten messages; the connection takes the first one. -/
def ten : List Node.Action :=
  [.datagram 7 (frame (numbered 0)), .task, .task, .app (.packet 0 (.packet (frame (numbered 0))))] ++
    (List.range 9).flatMap fun i => [.datagram 7 (frame (numbered (i + 1))), .task, .task]

/-- The same without delay: the connection takes each message when it comes, and routes it. -/
def tenFree : List Node.Action :=
  (List.range 10).flatMap fun i =>
    [.datagram 7 (frame (numbered i)), .task, .task, .app (.packet 0 (.packet (frame (numbered i)))),
      .app (.route 0), .app (.route 0), .app (.route 0)]

/-- The first proxy reads all it gets from the second remote. -/
def skips : List Node.Action :=
  List.replicate 16 (.app (.proxyRecv 0)) ++ [.app (.route 1), .app (.route 1), .app (.proxyRecv 0)]

/-- The connection routes a message, and the first proxy reads it. -/
def passes : List Node.Action :=
  [.app (.route 0), .app (.route 0), .app (.route 0), .app (.proxyRecv 0)]

/-- The connection takes the messages from `i` to nine, and the first proxy reads them. -/
def rest (i : Nat) : List Node.Action :=
  (List.range' i (10 - i)).flatMap fun i =>
    .app (.packet 0 (.packet (frame (numbered i)))) :: passes

end Spec.Node

/-- **C114 fails** for proxies: what one remote sends makes another's messages be lost. Two histories in
which the same program reads all that its proxy gets, after the ten messages have come. The remote of the proxy sends the same ten messages
in both. In the first, where nobody else sends, the proxy returns all of them. In the second another
remote has sent a single datagram before, and the second message is lost: the socket reports one as
missed. Nothing fails and nothing is dropped in either, and in the end the program waits for more. -/
theorem C114_false :
    (∃ tr s, Exec Node.step Node.init tr s ∧ Calm tr ∧
      Spec.Ep.Shown (app tr) (.proxying 0 0 ⟨2, 1⟩ 7) ∧
      arrivals 7 tr = (List.range 10).map (fun i => frame (numbered i)) ∧ arrivals 8 tr = [] ∧
      Spec.Ep.proxyGot 0 (app tr) = (List.range 10).map numbered ∧
      Node.step s (.app (.proxyRecv 0)) = none) ∧
    ∃ tr s, Exec Node.step Node.init tr s ∧ Calm tr ∧
      Spec.Ep.Shown (app tr) (.proxying 0 0 ⟨2, 1⟩ 7) ∧
      arrivals 7 tr = (List.range 10).map (fun i => frame (numbered i)) ∧ arrivals 8 tr = [heap] ∧
      (∃ w, (.packet 0 (.lagged 1), w) ∈ app tr) ∧
      Spec.Ep.proxyGot 0 (app tr) = numbered 0 :: (List.range' 2 8).map numbered ∧
      Node.step s (.app (.proxyRecv 0)) = none := by
  constructor
  · obtain ⟨tr, s, e, h⟩ := exec_by (step := Node.step) (s := Node.init)
      (twoRemotes ++ tenFree ++ List.replicate 10 (.app (.proxyRecv 0)))
      (fun tr s => decide (calm tr = true ∧ (.ep true, .proxying 0 0 ⟨2, 1⟩ 7) ∈ app tr ∧
        arrivals 7 tr = (List.range 10).map (fun i => frame (numbered i)) ∧ arrivals 8 tr = [] ∧
        Spec.Ep.proxyGot 0 (app tr) = (List.range 10).map numbered ∧
        (Node.step s (.app (.proxyRecv 0))).isNone = true)) (by decide +kernel)
    obtain ⟨h1, h2, h3, h4, h5, h6⟩ := of_decide_eq_true h
    exact ⟨tr, s, e, calm_iff h1, ⟨_, h2⟩, h3, h4, h5, Option.isNone_iff_eq_none.mp h6⟩
  · obtain ⟨tr, s, e, h⟩ := exec_by (step := Node.step) (s := Node.init)
      (twoRemotes ++ crowd ++ ten ++ skips ++ passes ++ [.app (.packet 0 (.lagged 1))] ++ rest 2)
      (fun tr s => decide (calm tr = true ∧ (.ep true, .proxying 0 0 ⟨2, 1⟩ 7) ∈ app tr ∧
        arrivals 7 tr = (List.range 10).map (fun i => frame (numbered i)) ∧ arrivals 8 tr = [heap] ∧
        (.packet 0 (.lagged 1), .none) ∈ app tr ∧
        Spec.Ep.proxyGot 0 (app tr) = numbered 0 :: (List.range' 2 8).map numbered ∧
        (Node.step s (.app (.proxyRecv 0))).isNone = true)) (by decide +kernel)
    obtain ⟨h1, h2, h3, h4, h5, h6, h7⟩ := of_decide_eq_true h
    exact ⟨tr, s, e, calm_iff h1, ⟨_, h2⟩, h3, h4, ⟨_, h5⟩, h6, Option.isNone_iff_eq_none.mp h7⟩

end Rsomeip
