import Verif.Lemmas.NetRun
import Verif.Lemmas.FairRun
import Verif.Lemmas.Once
import Verif.Props.Rt.LiveUdp
import Verif.Props.Rt.Once

/-! # C132: programs on a UDP network that loses nothing receive everything in the long run -/

namespace Rsomeip

section
open Rt Rt.Node Spec Spec.Ep Spec.Node

variable {r : Node.Run}

theorem shows_length : ∀ {o : List (Option Bytes)} {p : List Bytes}, Udp.Shows o p → o.length ≤ p.length
  | [], _, _ => Nat.zero_le _
  | none :: _, [], h => h.elim
  | some _ :: _, [], h => h.elim
  | none :: o, _ :: p, h => Nat.succ_le_succ (shows_length (o := o) (p := p) h)
  | some _ :: o, _ :: p, h => Nat.succ_le_succ (shows_length (o := o) (p := p) h.2)

/-- What is shown of one of several packets. -/
theorem shows_mid : ∀ {A : List Bytes} {o : List (Option Bytes)} {b : Bytes} {B : List Bytes},
    Udp.Shows o (A ++ b :: B) → o.length = (A ++ b :: B).length →
    ∃ P y Q, o = P ++ y :: Q ∧ P.length = A.length ∧ (y = none ∨ y = some b)
  | [], [], b, B, _, hl => by simp at hl
  | [], none :: o, b, B, _, _ => ⟨[], none, o, rfl, rfl, .inl rfl⟩
  | [], some x :: o, b, B, h, _ => ⟨[], some x, o, rfl, rfl, .inr (by rw [h.1])⟩
  | a :: A, [], b, B, _, hl => by simp at hl
  | a :: A, none :: o, b, B, h, hl => by
    obtain ⟨P, y, Q, h1, h2, h3⟩ := shows_mid (A := A) (o := o) (b := b) (B := B) h (by simpa using hl)
    exact ⟨none :: P, y, Q, by rw [h1]; rfl, by simp [h2], h3⟩
  | a :: A, some x :: o, b, B, h, hl => by
    obtain ⟨P, y, Q, h1, h2, h3⟩ := shows_mid (A := A) (o := o) (b := b) (B := B) h.2 (by simpa using hl)
    exact ⟨some x :: P, y, Q, by rw [h1]; rfl, by simp [h2], h3⟩

theorem fates_append (t u : Udp.Trace) : Udp.fates (t ++ u) = Udp.fates t ++ Udp.fates u := by
  simp only [Udp.fates, List.filterMap_append]

theorem arrived_append (t u : Udp.Trace) : Udp.arrived (t ++ u) = Udp.arrived t ++ Udp.arrived u := by
  simp only [Udp.arrived, List.filterMap_append]

theorem settled_append (c : Nat) (t u : Spec.Ep.Trace) : settled c (t ++ u) = settled c t ++ settled c u := by
  simp only [settled, List.filterMap_append]

theorem node_app_append (t u : Node.Trace) : app (t ++ u) = app t ++ app u := by
  simp only [app, List.filterMap_append]

/-- The receiving task deals with a datagram that arrives at time `t`. -/
theorem run_fate (hf : r.FairTo (· = .task)) {t : Nat} {a : Addr} {p : Bytes} {o : Node.Obs}
    (h : r.act t = some (.datagram a p, o)) (hp : p.length ≤ 1400) :
    ∃ u s f, t ≤ u ∧ r.hist u = r.hist t ++ s ∧ (a, p, f) ∈ Udp.fates (socket s) := by
  obtain ⟨u, h1, h2⟩ := C126_datagrams r hf (t + 1)
  obtain ⟨s, h3, -⟩ := r.segment (show t ≤ u by omega)
  have h4 := (Rt.Udp.exec_inv (parts (r.exec t)).2).2.1.fate
  have h5 : socket (r.hist (t + 1)) = socket (r.hist t) ++ [(.datagram a p, .none)] := by
    rw [r.hist_succ, h, socket_append, Option.toList_some]
    rcases r.move t with ⟨h6, _⟩ | ⟨a', o', h6, h7⟩
    · rw [h] at h6; cases h6
    · rw [h] at h6
      cases h6
      generalize r.state (t + 1) = s' at h7
      simp only [step, Rt.Udp.step] at h7
      split at h7
      · rename_i v w hv
        cases h7
        split at hv
        · cases hv
          rfl
        · cases hv
      · cases h7
  rw [h5, arrived_append, ← h4, handled, h3, socket_append, fates_append, List.map_append, List.append_assoc,
    List.prefix_append_right_inj] at h2
  have h6 : (a, p) ∈ (Udp.fates (socket s)).map fun e => (e.1, e.2.1) := by
    refine h2.subset (List.mem_append_right _ ?_)
    simp [Udp.arrived, List.take_of_length_le hp]
  obtain ⟨⟨b, q, f⟩, h7, h8⟩ := List.mem_map.mp h6
  cases h8
  exact ⟨u, s, f, by omega, h3, h7⟩

/-- Everybody gets to know a connection that a datagram was put into, or it is thrown away. -/
theorem run_owner (hf : Node.Fair r) (hb : Node.Settles r) {u d : Nat} {a : Addr} {x : Rt.Udp.Action} {p : Bytes}
    (h : (x, .routed a p d) ∈ socket (r.hist u)) :
    ∃ v, u ≤ v ∧ (Udp.Discarded d (socket (r.hist v)) ∨ ∃ c, c < (r.state v).ep.connCount ∧
      (r.state v).chan c = d ∧ Shown (app (r.hist v)) (.opened c a)) := by
  have e := (parts (r.exec u)).2
  have hi := Rt.Udp.exec_inv e
  obtain ⟨hd, hpeer⟩ := hi.2.1.peers (a, p, some d) (by
    rw [Udp.fates, List.mem_filterMap]
    exact ⟨_, h, rfl⟩) d rfl
  have owner : ∀ v, u ≤ v → ((r.state v).udp.chans d).held = true → ((r.state v).udp.chans d).peer = a →
      ∃ c, c < (r.state v).ep.connCount ∧ (r.state v).chan c = d ∧ Shown (app (r.hist v)) (.opened c a) := by
    intro v hv hh hpe
    obtain ⟨c, h1, h2⟩ := owned (r.exec v) d hh
    refine ⟨c, h1, h2, ?_⟩
    obtain ⟨b, h3⟩ := (Rt.Ep.conn_shown (parts (r.exec v)).1 c).mp h1
    have h4 := ((Rt.Udp.exec_inv (parts (r.exec v)).2).2.1.conns _ ((told (r.exec v)).opened c b h3).2).2.1
    simp only [h2, hpe] at h4
    rw [h4]
    exact h3
  cases hrx : ((r.state u).udp.chans d).rx with
  | false => exact ⟨u, Nat.le_refl _, .inl ((Rt.Udp.discarded_iff e hd).mpr hrx)⟩
  | true =>
    cases hh : ((r.state u).udp.chans d).held with
    | true => exact ⟨u, Nat.le_refl _, .inr (owner u (Nat.le_refl _) hh hpeer)⟩
    | false =>
      obtain ⟨b, hq⟩ := Rt.Udp.pending e d hrx hh
      rw [hpeer] at hq
      have hQ := Rt.Udp.queues e
      rw [hQ.queue b (Rt.Udp.queue_open e b (List.ne_nil_of_mem hq))] at hq
      have hoff : (d, a) ∈ Udp.offered b (socket (r.hist u)) := List.mem_of_mem_drop hq
      obtain ⟨v, hv, h1⟩ := C126_accepted hf hb b u
      have taken : (d, a) ∈ Udp.takenFrom b (socket (r.hist v)) →
          ((r.state v).udp.chans d).held = true ∧ ((r.state v).udp.chans d).peer = a := by
        intro ht
        have hc : (d, a) ∈ Udp.connections (socket (r.hist v)) := by
          rw [Udp.takenFrom, List.mem_filterMap] at ht
          obtain ⟨⟨y, w⟩, h2, h3⟩ := ht
          rw [Udp.connections, List.mem_filterMap]
          refine ⟨(y, w), h2, ?_⟩
          split at h3
          · rename_i h4
            cases h4
            split at h3
            · cases h3; rfl
            · cases h3
          · cases h3
        have := (Rt.Udp.exec_inv (parts (r.exec v)).2).2.1.conns _ hc
        exact ⟨this.2.2, this.2.1⟩
      rcases h1 with h1 | h1
      · obtain ⟨h2, h3⟩ := taken (h1.subset hoff)
        exact ⟨v, hv, .inr (owner v hv h2 h3)⟩
      · have hoff' : (d, a) ∈ Udp.offered b (socket (r.hist v)) := by
          obtain ⟨s, h2, -⟩ := r.segment hv
          rw [h2, socket_append]
          exact (offered_prefix b _ _).subset hoff
        obtain ⟨z, hz⟩ := (Rt.Udp.queues (parts (r.exec v)).2).split b
        by_cases ht : (d, a) ∈ Udp.takenFrom b (socket (r.hist v))
        · obtain ⟨h2, h3⟩ := taken ht
          exact ⟨v, hv, .inr (owner v hv h2 h3)⟩
        · refine ⟨v, hv, .inl (.inr ⟨b, List.mem_map.mpr ⟨(d, a), ?_, rfl⟩, h1⟩)⟩
          rw [Spec.Udp.pending]
          rw [← hz] at hoff' ⊢
          rw [List.drop_left]
          exact (List.mem_append.mp hoff').resolve_left ht

/-- What has happened since a later time has happened since an earlier one. -/
theorem Spec.Node.Mishap.since {a : Addr} {p : Bytes} {old s tr : Spec.Udp.Trace} (h : Mishap a p (old ++ s) tr) :
    Mishap a p old tr := by
  have key : ∀ x, x ∈ tr.drop (old ++ s).length → x ∈ tr.drop old.length := fun x hx => by
    rw [List.length_append, ← List.drop_drop] at hx
    exact List.mem_of_mem_drop hx
  cases h with
  | lost x why h => exact .lost x why (key _ h)
  | missed x d k h hk => exact .missed x d k (key _ h) (key _ hk)
  | discarded x d h hd => exact .discarded x d (key _ h) hd

/-- **C132**, in one program: a datagram that arrives at a time `t` meets with a mishap that the socket
shows, or all its messages are handed to the handles of their interfaces or dropped, after `t`. -/
theorem C132_datagram (hf : Node.Fair r) (hr : Node.Read r) (hb : Node.Settles r) {t : Nat} {a : Addr} {p : Bytes}
    {o : Node.Obs} (h : r.act t = some (.datagram a p, o)) (hp : p.length ≤ 1400) :
    ∃ u, t ≤ u ∧ (Mishap a p (socket (r.hist t)) (socket (r.hist u)) ∨ ∃ c q, Shown (app (r.hist u)) (.opened c a) ∧
      settled c (app (r.hist u)) = settled c (app (r.hist t)) ++ q ∧ ∀ m ∈ contents p, m ∈ q) := by
  obtain ⟨u, s, f, h1, h2, h3⟩ := run_fate hf.task h hp
  have h4 : ∃ x w, (x, w) ∈ socket s ∧ ((∃ why, w = .lost a p why) ∨ ∃ d, w = .routed a p d ∧ f = some d) := by
    rw [Udp.fates, List.mem_filterMap] at h3
    obtain ⟨⟨x, w⟩, h4, h5⟩ := h3
    refine ⟨x, w, h4, ?_⟩
    cases w <;> simp at h5
    · obtain ⟨rfl, rfl, rfl⟩ := h5
      exact .inr ⟨_, rfl, rfl⟩
    · obtain ⟨rfl, rfl, -⟩ := h5
      exact .inl ⟨_, rfl⟩
  have mem : ∀ {v} {y : Rt.Udp.Action × Rt.Udp.Obs}, u ≤ v → y ∈ socket s → y ∈ socket (r.hist v) := by
    intro v y hv hy
    obtain ⟨z, hz, -⟩ := r.segment hv
    rw [hz, h2, socket_append, socket_append]
    exact List.mem_append_left _ (List.mem_append_right _ hy)
  have new : ∀ {v} {y : Rt.Udp.Action × Rt.Udp.Obs}, u ≤ v → y ∈ socket s →
      y ∈ (socket (r.hist v)).drop (socket (r.hist t)).length := by
    intro v y hv hy
    obtain ⟨z, hz, -⟩ := r.segment hv
    rw [hz, h2, socket_append, socket_append, List.append_assoc, List.drop_left]
    exact List.mem_append_left _ hy
  obtain ⟨x, w, h5, ⟨why, rfl⟩ | ⟨d, rfl, rfl⟩⟩ := h4
  · exact ⟨u, h1, .inl (.lost x why (new (Nat.le_refl _) h5))⟩
  obtain ⟨v, hv, hd | ⟨c, hc, hcd, hsh⟩⟩ := run_owner hf hb (mem (Nat.le_refl _) h5)
  · exact ⟨v, by omega, .inl (.discarded x d (new hv h5) hd)⟩
  obtain ⟨k, hk, hover | ⟨pk, g1, g2, g3, g4⟩⟩ := C126_received_partial hf hr hb hsh
  · refine ⟨k, by omega, .inl (.discarded x d (new (by omega) h5) ?_)⟩
    obtain ⟨z, -, hz⟩ := r.segment hk
    obtain ⟨h6, h7⟩ := chan_stays hz hc
    obtain ⟨h8, -, -, h9⟩ := (link (r.exec k)).chan c h6
    rw [h7, hcd] at h8 h9
    refine (Rt.Udp.discarded_iff (parts (r.exec k)).2 h8).mpr ?_
    rw [h9]
    exact (Rt.Ep.dead_iff (parts (r.exec k)).1 c).mpr (.inr hover)
  rw [hcd] at g1 g2 g3
  -- the datagram among the packets of its connection
  have h6 : p ∈ Udp.into d (socket s) := by
    rw [Udp.into, List.mem_filterMap]
    exact ⟨_, h3, by simp⟩
  obtain ⟨A, B, h7⟩ := List.append_of_mem h6
  obtain ⟨z, hz, -⟩ := r.segment hv
  have h8 : Udp.into d (socket (r.hist v)) = (Udp.into d (socket (r.hist t)) ++ A) ++ p ::
      (B ++ Udp.into d (socket z)) := by
    rw [hz, h2, socket_append, socket_append, into_append, into_append, h7]
    simp
  rw [h8] at g1 g2
  obtain ⟨P, y, Q, rfl, h9, h10⟩ := shows_mid g2 g1
  obtain ⟨z', hz', -⟩ := r.segment (show t ≤ k by omega)
  rcases h10 with rfl | rfl
  · refine ⟨k, by omega, .inl ?_⟩
    have h11 : none ∈ Udp.seen d (socket z') := by
      have h12 := shows_length ((Rt.Udp.exec_inv (parts (r.exec t)).2).2.1.shows d)
      obtain ⟨R, h13⟩ := g3
      rw [hz', socket_append, seen_append] at h13
      have h14 := congrArg (List.drop (Udp.seen d (socket (r.hist t))).length) h13
      rw [List.drop_left, List.append_assoc, List.drop_append_of_le_length (by
        rw [h9, List.length_append]; omega)] at h14
      rw [← h14]
      simp
    rw [Udp.seen, List.mem_flatMap] at h11
    obtain ⟨⟨y, w⟩, h12, h13⟩ := h11
    split at h13
    · split at h13
      · simp at h13
      · cases h13
    · rename_i h14
      cases h14
      split at h13
      · rename_i h14
        subst h14
        exact .missed x _ _ (new (by omega) h5) (by rw [hz', socket_append, List.drop_left]; exact h12)
      · cases h13
    · cases h13
  · refine ⟨k, by omega, .inr ⟨c, ?_⟩⟩
    have hk' : Shown (app (r.hist k)) (.opened c a) := by
      obtain ⟨w, hw, -⟩ := r.segment hk
      rw [hw, node_app_append]
      obtain ⟨y, hy⟩ := hsh
      exact ⟨y, List.mem_append_left _ hy⟩
    -- what was dealt with before came from packets before
    have h11 : settled c (app (r.hist t)) <+: (P.filterMap id).flatMap contents := by
      refine ((Rt.Ep.line (parts (r.exec t)).1).prefix c).trans ?_
      rw [heard_eq]
      by_cases hct : c < (r.state t).ep.connCount
      · rw [(told (r.exec t)).reads c hct, Udp.got]
        obtain ⟨z₂, -, hz₂⟩ := r.segment (show t ≤ v by omega)
        rw [← (chan_stays hz₂ hct).2, hcd]
        have h12 : Udp.seen d (socket (r.hist t)) <+: P := by
          refine List.prefix_of_prefix_length_le (l₃ := Udp.seen d (socket (r.hist k))) ?_ ?_ ?_
          · rw [hz', socket_append, seen_append]
            exact List.prefix_append ..
          · exact (List.prefix_append ..).trans g3
          · rw [h9, List.length_append]
            have := shows_length ((Rt.Udp.exec_inv (parts (r.exec t)).2).2.1.shows d)
            omega
        obtain ⟨w, rfl⟩ := h12
        rw [List.filterMap_append, List.flatMap_append]
        exact List.prefix_append ..
      · rw [(told (r.exec t)).high c (by omega)]
        exact List.nil_prefix
    obtain ⟨w, hw⟩ := h11
    obtain ⟨w', hw'⟩ := g4
    refine ⟨w ++ (contents p ++ ((Q.filterMap id).flatMap contents ++ w')), hk', ?_, fun m hm => by simp [hm]⟩
    rw [← hw', List.filterMap_append, List.flatMap_append, ← hw]
    simp

/-- A message accepted for a connection is handed to the operating system, with the address of the
connection. -/
theorem run_hands {c : Nat} (hf : r.FairTo (SendStep c)) {t : Nat} {b : Addr} {x : Rt.Ep.Action} {o : Node.Obs}
    {m : Msg} (hc : Shown (app (r.hist t)) (.opened c b)) (h : r.act t = some (.app x, o))
    (ho : o.ep = some (.accepted c m)) (hl : (wireForm m).length ≤ 1400) :
    ∃ u, t ≤ u ∧ (ConnOver c (app (r.hist u)) ∨
      ∃ w, r.act u = some (.app (.sent c true), w) ∧ (b, wireForm m) ∈ w.out) := by
  obtain ⟨u, h1, h2 | h2⟩ := C126_sent r c hf (t + 1)
  · obtain ⟨s, h3, -, h4⟩ := r.segment_acts (show t ≤ u by omega)
    have h5 : accepted c (app (r.hist (t + 1))) = accepted c (app (r.hist t)) ++ [m] := by
      rw [r.hist_succ, h, Option.toList_some, node_app_append]
      simp [accepted, app, ho]
    rw [h5, List.map_append, h3, node_app_append, Rt.Node.onWire_append] at h2
    obtain ⟨R, h6⟩ := C74_order (parts (r.exec t)).1 c
    rw [← h6, List.append_assoc, List.prefix_append_right_inj] at h2
    have h7 : wireForm m ∈ onWire c (app s) := h2.subset (by simp)
    rw [onWire, List.mem_filterMap] at h7
    obtain ⟨⟨y, w⟩, h8, h9⟩ := h7
    rw [app, List.mem_filterMap] at h8
    obtain ⟨⟨z, v⟩, h10, h11⟩ := h8
    split at h9
    · rename_i d ok b' ok' h12
      cases h12
      split at h9
      · rename_i h13
        subst h13
        cases h9
        split at h11
        · rename_i z' v' h13
          cases h13
          obtain ⟨v1, h14, h15⟩ := Option.map_eq_some_iff.mp h11
          cases h15
          obtain ⟨t₁, t₂, h16⟩ := List.append_of_mem h10
          obtain ⟨j, j1, j2, -⟩ := h4 _ _ _ h16
          have e := r.exec j
          have e' := r.exec (j + 1)
          obtain ⟨hg, hh⟩ := Rt.Ep.good_hist (parts e).1
          have hc' : Shown (app (r.hist j)) (.opened d b) := by
            obtain ⟨w, hw, -⟩ := r.segment j1
            rw [hw, node_app_append]
            exact hc.mono _
          have hlt := (Rt.Ep.conn_shown (parts e).1 d).mpr ⟨b, hc'⟩
          have haddr : ((r.state j).ep.conns d).addr = b := opened_unique e (hh.conns d hlt) hc'
          have dead : ((r.state (j + 1)).ep.conns d).alive = false →
              ∃ u, t ≤ u ∧ ConnOver d (app (r.hist u)) := by
            intro h
            refine ⟨j + 1, by omega, Rt.Ep.over_of_dead (parts e').1
              ((Rt.Ep.conn_shown (parts e').1 d).mpr ⟨b, ?_⟩) h⟩
            rw [r.hist_succ, node_app_append]
            exact hc'.mono _
          rcases r.move j with ⟨h17, _⟩ | ⟨a', o', h17, h18⟩
          · rw [j2] at h17; cases h17
          · rw [j2] at h17
            cases h17
            generalize r.state (j + 1) = s' at h18 dead
            cases move_of_step h18 with
            | net _ u v w ha => exact absurd rfl (ha _)
            | app _ e o _ us out he hcall =>
              dsimp only at h14
              cases h14
              have hm := Rt.Ep.move_of_step he
              cases hcall with
              | still _ _ _ _ _ _ h7 => exact absurd rfl (h7 _ _)
              | send c' ok' b' hx hb ha hl' =>
                cases hx
                have : b' = wireForm m ∧ ok = true := by cases hm <;> grind [upd, Rt.Ep.Conn.ended]
                obtain ⟨rfl, rfl⟩ := this
                refine ⟨j, j1, .inr ⟨_, j2, ?_⟩⟩
                rw [if_pos hl, haddr]
                exact List.mem_singleton.mpr rfl
              | sendEnd c' ok' b' v w hx hb ha hl' hu =>
                cases hx
                obtain ⟨u, h19, h20⟩ := dead ha
                exact ⟨u, h19, .inl h20⟩
              | _ => simp_all
        · cases h11
      · cases h9
    · cases h9
  · exact ⟨u, by omega, .inl h2⟩

end

section
open Rt Rt.Net Spec Spec.Ep Spec.Net
open Spec.Node (SendStep Mishap app socket)

variable {own : Addr → Bool} {r : Run own}

/-- Two programs of which the second one, at `n`, gets what the first one, at `a`, sends from `t` on. -/
theorem pair_delivered {ra rn : Node.Run} {a n : Addr} {c t : Nat} {m : Msg} {x : Rt.Ep.Action} {o : Node.Obs}
    (hs : ra.FairTo (SendStep c)) (hf : Node.Fair rn) (hr : Node.Read rn) (hb : Node.Settles rn)
    (hw : ∀ v c o p, t ≤ v → ra.act v = some (.app (.sent c true), o) → (n, p) ∈ o.out →
      ∃ u, v < u ∧ ((∃ o', rn.act u = some (.datagram a p, o')) ∨ (.failure, .none) ∈ socket (rn.hist u)))
    (hc : Shown (app (ra.hist t)) (.opened c n)) (h : ra.act t = some (.app x, o))
    (ho : o.ep = some (.accepted c m)) (hl : 16 + m.payload.length ≤ 1400) :
    ∃ u, t ≤ u ∧ (ConnOver c (app (ra.hist u)) ∨ (.failure, .none) ∈ socket (rn.hist u) ∨
      Mishap a (frame m) (socket (rn.hist t)) (socket (rn.hist u)) ∨
      ∃ c' q, Shown (app (rn.hist u)) (.opened c' a) ∧
        settled c' (app (rn.hist u)) = settled c' (app (rn.hist t)) ++ q ∧
        ∃ m' ∈ q, frame m' = frame m ∧ (Normal m → m' = m)) := by
  have hwf : wireForm m = frame m := by rw [wireForm, if_pos (by omega)]
  have hlen : (frame m).length ≤ 1400 := by rw [frame_length]; omega
  obtain ⟨v, h1, h2 | ⟨w, h2, h3⟩⟩ := run_hands hs hc h ho (by rw [hwf]; exact hlen)
  · exact ⟨v, h1, .inl h2⟩
  obtain ⟨u, h4, ⟨o', h5⟩ | h5⟩ := hw v c w _ h1 h2 h3
  · rw [hwf] at h5
    obtain ⟨k, h6, h7⟩ := C132_datagram hf hr hb h5 hlen
    refine ⟨k, by omega, .inr (.inr ?_)⟩
    rcases h7 with h7 | ⟨c', q, h7, h8, h9⟩
    · obtain ⟨z, hz, -⟩ := rn.segment (show t ≤ u by omega)
      rw [hz, socket_append] at h7
      exact .inl h7.since
    · obtain ⟨z, hz, -⟩ := rn.segment (show t ≤ u by omega)
      refine .inr ⟨c', settled c' (app z) ++ q, h7, ?_, ?_⟩
      · rw [h8, hz, node_app_append, settled_append, List.append_assoc]
      · let m₁ : Msg := { m with
          messageType := .fromU8 m.messageType.asU8, returnCode := .fromU8 m.returnCode.asU8 }
        have g1 : frame m₁ = frame m := by
          simp only [frame, frameWith, Spec.head, m₁, someip_types, someip_codes]
        have g2 : Normal m₁ := normal_mk ..
        have g3 : contents (frame m) = [m₁] := by
          have := Frames.cons m₁ g2 (show 8 + m.payload.length < 2 ^ 32 by omega) .nil
          rw [g1, List.append_nil] at this
          exact Rt.Ep.contents_eq this
        refine ⟨m₁, List.mem_append_right _ (h9 m₁ (by rw [g3]; exact List.mem_singleton.mpr rfl)), g1,
          fun hm => frame_inj g2 hm (show 8 + m.payload.length < 2 ^ 32 by omega) g1⟩
  · exact ⟨u, by omega, .inr (.inl h5)⟩

theorem pair_carries {a n : Addr} (hw : Carries r a n) (v c : Nat) (o : Node.Obs) (p : Bytes)
    (h : (nodeRun r a).act v = some (.app (.sent c true), o)) (hp : (n, p) ∈ o.out) :
    ∃ u, v < u ∧ ((∃ o', (nodeRun r n).act u = some (.datagram a p, o')) ∨
      (.failure, .none) ∈ socket ((nodeRun r n).hist u)) := by
  obtain ⟨u, h1, ⟨o', h2⟩ | h2⟩ := hw v c o p (nodeRun_act h) hp
  · exact ⟨u, h1, .inl ⟨o', by show (r.act u).bind _ = _; rw [h2]; simp⟩⟩
  · exact ⟨u, h1, .inr (by rw [nodeRun_hist]; exact h2)⟩

/-- **C132.** A message is accepted at `a` for a connection to `n`, by a call of `send_to` or of a proxy, and
fits into a datagram. The task of that connection is not passed over, nobody is passed over at `n`, the
handles there are read from, the tables there keep their buckets. If the network loses nothing from `a` to `n`
and the connection is not closed before the message is sent, then the message is handed to the handles of its
interface at `n` or dropped there, as message of a connection with `a`, afterwards; unless the socket at `n`
has failed or shows what became of the datagram. -/
theorem C132_delivered {a n : Addr} {c t : Nat} {m : Msg} {x : Rt.Ep.Action} {o : Node.Obs} (ha : own a = true)
    (hn : own n = true) (hs : r.FairTo (At a (SendStep c))) (hf : Fair r n) (hr : Read r n) (hb : Settles r n)
    (hw : Carries r a n) (hc : Shown (app (at_ a (r.hist t))) (.opened c n))
    (h : r.act t = some ((a, .app x), o)) (ho : o.ep = some (.accepted c m)) (hl : 16 + m.payload.length ≤ 1400) :
    ∃ u, t ≤ u ∧ (ConnOver c (app (at_ a (r.hist u))) ∨ (.failure, .none) ∈ socket (at_ n (r.hist u)) ∨
      Mishap a (frame m) (socket (at_ n (r.hist t))) (socket (at_ n (r.hist u))) ∨
      ∃ c' q, Shown (app (at_ n (r.hist u))) (.opened c' a) ∧
        settled c' (app (at_ n (r.hist u))) = settled c' (app (at_ n (r.hist t))) ++ q ∧
        ∃ m' ∈ q, frame m' = frame m ∧ (Normal m → m' = m)) := by
  simp only [← nodeRun_hist] at hc ⊢
  exact pair_delivered (x := x) (node_fair ha (by rintro a p (h | ⟨ok, h⟩) <;> cases h) hs) (fair_node hf hn)
    (read_node hr) (settles_node hb) (fun v c o p _ => pair_carries hw v c o p) hc
    (by show (r.act t).bind _ = _; rw [h]; simp) ho hl

/-! ### A run -/

/-- A run that has come to rest is fair. -/
theorem udp_net_rests {tr : Spec.Net.Trace} {s : State} (e : Exec (step own) init tr s)
    (h1 : ∀ n, own n = true → Node.Rests (s.nodes n)) :
    ∃ r : Run own, (∀ n, own n = true → Fair r n) ∧ (∀ n, Settles r n) ∧
      (∀ n, own n = true → ∀ P : Node.Action → Prop, (∀ x, P x → Node.step (s.nodes n) x = none) →
        r.FairTo (At n P)) ∧
      ∀ t, tr.length ≤ t → r.state t = s ∧ r.hist t = tr := by
  obtain ⟨r, hr⟩ := Endless.of_exec e
  have key : ∀ n, own n = true → ∀ P : Node.Action → Prop, (∀ x, P x → Node.step (s.nodes n) x = none) →
      r.FairTo (At n P) := by
    intro n hn P hP hio
    obtain ⟨t, ht, ⟨n', x⟩, o, s', ⟨rfl, h2⟩, h3⟩ := hio tr.length
    rw [(hr t ht).1] at h3
    have := hP x h2
    simp [step, this] at h3
  refine ⟨r, fun n hn => ?_, fun n => ⟨tr.length, ?_⟩, key, fun n hn => ⟨(hr n hn).1, (hr n hn).2.1⟩⟩
  · have h := h1 n hn
    refine ⟨key n hn _ ?_, fun l => key n hn _ ?_, fun l => key n hn _ ?_, fun l => key n hn _ ?_,
      fun l => key n hn _ ?_, fun l => key n hn _ ?_, fun l => key n hn _ ?_, fun l => key n hn _ ?_,
      key n hn _ ?_⟩
    · rintro x ⟨ok, rfl⟩; exact h _ rfl
    · rintro x rfl; exact h _ rfl
    · rintro x ⟨a, rfl⟩; exact h _ rfl
    · rintro x rfl; exact h _ rfl
    · rintro x rfl; exact h _ rfl
    · rintro x ⟨p, rfl⟩; exact h _ rfl
    · rintro x (rfl | ⟨ok, rfl⟩) <;> exact h _ rfl
    · rintro x rfl; exact h _ rfl
    · rintro x rfl; exact h _ rfl
  · rintro t ht ⟨a, o, h7, _⟩
    rw [(hr t ht).2.2] at h7
    cases h7

/-- What `a` sends to `n` with this step arrives later. -/
def Spec.Net.itArrives (a n : Addr) (x : Action × Node.Obs) (v : Spec.Net.Trace) : Bool :=
  match x.1.2 with
  | .app (.sent _ true) => x.1.1 != a || x.2.out.all fun y => y.1 != n ||
      v.any fun z => z.1.1 == n && match z.1.2 with | .datagram b q => b == a && q == y.2 | _ => false
  | _ => true

/-- All that `a` sends to `n` arrives later. -/
def Spec.Net.allArrive (a n : Addr) : Spec.Net.Trace → Bool
  | [] => true
  | x :: v => itArrives a n x v && allArrive a n v

theorem allArrive_at {a n : Addr} : ∀ {t₁ : Spec.Net.Trace} {c : Nat} {o : Node.Obs} {t₂ : Spec.Net.Trace},
    allArrive a n (t₁ ++ ((a, .app (.sent c true)), o) :: t₂) = true → ∀ p, (n, p) ∈ o.out →
    ∃ o', ((n, .datagram a p), o') ∈ t₂
  | [], c, o, t₂, h, p, hp => by
    rw [List.nil_append, allArrive, Bool.and_eq_true] at h
    have h0 := h.1
    simp only [itArrives, bne_self_eq_false, Bool.false_or] at h0
    have h1 := List.all_eq_true.mp h0 _ hp
    simp only [bne_self_eq_false, Bool.false_or, List.any_eq_true, Bool.and_eq_true, beq_iff_eq] at h1
    obtain ⟨⟨⟨n, x⟩, o'⟩, h2, h3, h4⟩ := h1
    dsimp only at h3 h4
    subst h3
    split at h4
    · simp only [Bool.and_eq_true, beq_iff_eq] at h4
      obtain ⟨rfl, rfl⟩ := h4
      exact ⟨o', h2⟩
    · cases h4
  | x :: t₁, c, o, t₂, h, p, hp => by
    rw [List.cons_append, allArrive, Bool.and_eq_true] at h
    exact allArrive_at h.2 p hp

theorem rest_carries {tr : Spec.Net.Trace} {s : State} {a n : Addr}
    (r3 : ∀ t, tr.length ≤ t → r.state t = s ∧ r.hist t = tr) (g3 : allArrive a n tr = true) : Carries r a n := by
  intro t c o p h1 h2
  obtain ⟨v, h3, -, h4⟩ := r.segment_acts (show t + 1 ≤ max (t + 1) tr.length by omega)
  rw [(r3 _ (Nat.le_max_right ..)).2, r.hist_succ, h1, Option.toList_some, List.append_assoc] at h3
  rw [h3] at g3
  obtain ⟨o', h5⟩ := allArrive_at g3 p h2
  obtain ⟨t₁, t₂, h6⟩ := List.append_of_mem h5
  obtain ⟨j, h7, h8, -⟩ := h4 _ _ _ h6
  exact ⟨j, by omega, .inl ⟨o', h8⟩⟩

theorem rest_act {tr : Spec.Net.Trace} {s : State} {i : Nat} {x : Action × Node.Obs}
    (r3 : ∀ t, tr.length ≤ t → r.state t = s ∧ r.hist t = tr) (g6 : tr[i]? = some x) :
    ∃ j, r.hist j = tr.take i ∧ r.act j = some x := by
  obtain ⟨v, h3, -, h4⟩ := r.segment_acts (Nat.zero_le tr.length)
  rw [(r3 _ (Nat.le_refl _)).2] at h3
  have h0 : r.hist 0 = [] := rfl
  rw [h0, List.nil_append] at h3
  subst h3
  obtain ⟨hlt, h5⟩ := List.getElem?_eq_some_iff.mp g6
  have h6 : tr = tr.take i ++ tr[i] :: tr.drop (i + 1) := by
    rw [List.getElem_cons_drop, List.take_append_drop]
  obtain ⟨j, -, h7, h8⟩ := h4 _ _ _ h6
  rw [h0, List.nil_append] at h8
  rw [h5] at h7
  exact ⟨j, h8, h7⟩

/-- A run in which nobody is passed over and nothing is lost: the program at 6 serves an interface, the one at
5 sends a request, which arrives, is accepted as a new connection, and is handed to the stub. -/
example : ∃ r : Run two, r.FairTo (At 5 (SendStep 0)) ∧ Fair r 6 ∧ Read r 6 ∧ Settles r 6 ∧ Carries r 5 6 ∧
    ∃ t o, Shown (app (at_ 5 (r.hist t))) (.opened 0 6) ∧
      r.act t = some ((5, .app (.proxySend 0 Ep.msgA)), o) ∧ o.ep = some (.accepted 0 Ep.msgA) ∧
      settled 0 (app (at_ 6 (r.hist t))) = [] ∧ ∃ u, settled 0 (app (at_ 6 (r.hist u))) = [Ep.msgA] := by
  obtain ⟨tr, s, e, h⟩ := exec_by (step := step two) (s := init) once
    (fun (tr : Spec.Net.Trace) s => calmNode (s.nodes 5) && calmNode (s.nodes 6) && allArrive 5 6 tr && decide (
      (∀ k, k < (s.nodes 6).ep.stubCount →
        ((s.nodes 6).ep.ifaces ((s.nodes 6).ep.stubs k).iface).queue.length < 16) ∧
      (s.nodes 6).ep.proxyCount = 0 ∧
      tr[15]? = some ((5, Node.Action.app (.proxySend 0 Ep.msgA)),
        (⟨some (.accepted 0 Ep.msgA), [], []⟩ : Node.Obs)) ∧
      (app (at_ 5 (tr.take 15))).any (fun x => decide (x.2 = .opened 0 6)) = true ∧
      settled 0 (app (at_ 6 (tr.take 15))) = [] ∧ settled 0 (app (at_ 6 tr)) = [Ep.msgA]))
    (by decide +kernel)
  simp only [Bool.and_eq_true, decide_eq_true_eq] at h
  obtain ⟨⟨⟨g1, g2⟩, g3⟩, g4, g5, g6, g7, g8, g9⟩ := h
  have hg := fun n => (Rt.Ep.good_hist (Node.parts ((each e).1 n)).1).1
  obtain ⟨r, r1, r2, -, r3⟩ := udp_net_rests e (fun n hn => by
    simp only [two, Bool.or_eq_true, decide_eq_true_eq] at hn
    rcases hn with rfl | rfl
    · exact (calm_still (hg 5) g1).1
    · exact (calm_still (hg 6) g2).1)
  refine ⟨r, (r1 5 rfl).send 0, r1 6 rfl, ⟨fun k N => ⟨max N tr.length, Nat.le_max_left .., ?_⟩,
    fun p N => ⟨max N tr.length, Nat.le_max_left .., ?_⟩⟩, r2 6, ?_, ?_⟩
  · rw [(r3 _ (Nat.le_max_right ..)).1]
    exact fun hk => g4 k (Rt.Ep.stub_lt (hg 6).fresh hk)
  · rw [(r3 _ (Nat.le_max_right ..)).1]
    intro hp
    have := Rt.Ep.proxy_lt (hg 6).fresh hp
    omega
  · exact rest_carries r3 g3
  · obtain ⟨j, h8, h7⟩ := rest_act r3 g6
    refine ⟨j, _, ?_, h7, rfl, by rw [h8]; exact g8, tr.length, by rw [(r3 _ (Nat.le_refl _)).2]; exact g9⟩
    rw [h8]
    obtain ⟨⟨y, w⟩, h9, h10⟩ := List.any_eq_true.mp g7
    simp only [decide_eq_true_eq] at h10
    exact ⟨y, by rw [← h10]; exact h9⟩

end

end Rsomeip
