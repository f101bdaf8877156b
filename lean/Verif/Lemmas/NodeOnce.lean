import Verif.Lemmas.NodeHist
import Verif.Lemmas.EpSeq
import Verif.Props.Rt.Endpoint
import Verif.Props.Rt.Udp

/-! # Counting messages -/

namespace Rsomeip.Rt.Node

open Spec.Node

theorem arrivals_append (a : Addr) (t u : Trace) :
    arrivals a (t ++ u) = arrivals a t ++ arrivals a u := by
  simp only [arrivals, List.filterMap_append]

theorem arrivedFrom_append (a : Addr) (t u : Spec.Udp.Trace) :
    Spec.Udp.arrivedFrom a (t ++ u) = Spec.Udp.arrivedFrom a t ++ Spec.Udp.arrivedFrom a u := by
  simp only [Spec.Udp.arrivedFrom, Spec.Udp.arrived, List.filterMap_append]

theorem arrivals_eq {tr : Trace} {s : State} (e : Exec step init tr s) (a : Addr) :
    Spec.Udp.arrivedFrom a (socket tr) = arrivals a tr := by
  induction e with
  | nil => rfl
  | @snoc tr1 s1 s2 act ob e1 hs ih =>
    rw [socket_snoc, arrivals_append, arrivedFrom_append, ih]
    congr 1
    cases move_of_step hs with
    | app x e o _ us out' he hc => cases hc <;> rfl
    | net _ u v w ha hn hd hu =>
      rcases hn with rfl | rfl | ⟨b, p, rfl⟩
      · cases act with
        | datagram b p => cases (hd b p).mp rfl
        | _ => rfl
      · cases act with
        | datagram b p => cases (hd b p).mp rfl
        | _ => rfl
      · cases (hd b p).mpr rfl
        simp [Spec.Udp.arrivedFrom, Spec.Udp.arrived, arrivals, List.filterMap_cons]

theorem mem_reads {c : Nat} {b : Bytes} {o : Ep.Obs} {tr : Spec.Ep.Trace}
    (h : (.packet c (.packet b), o) ∈ tr) : b ∈ reads c tr := by
  simp only [reads, List.mem_filterMap]
  exact ⟨_, h, by simp⟩

/-- A packet received by a connection to `a` arrived from `a`. -/
theorem read_arrived {tr : Trace} {s : State} (e : Exec step init tr s) {c : Nat} {a : Addr}
    (h1 : Spec.Ep.Shown (app tr) (.opened c a)) : (reads c (app tr)).Sublist (arrivals a tr) := by
  have h := told e
  obtain ⟨hc, hm⟩ := h.opened c a h1
  rw [h.reads c hc, ← arrivals_eq e]
  exact C57_demux (parts e).2 _ _ hm

/-! ### At most once -/

theorem sum_le {α : Type} (l : List α) {f g : α → Nat} (h : ∀ x ∈ l, f x ≤ g x) :
    (l.map f).sum ≤ (l.map g).sum := by
  induction l with
  | nil => exact Nat.le_refl _
  | cons x l ih =>
    simp only [List.map_cons, List.sum_cons]
    have h1 := h x List.mem_cons_self
    have h2 := ih fun y hy => h y (List.mem_cons_of_mem _ hy)
    omega

theorem sum_add {α : Type} (l : List α) (f g : α → Nat) :
    (l.map fun x => f x + g x).sum = (l.map f).sum + (l.map g).sum := by
  induction l with
  | nil => rfl
  | cons x l ih => simp only [List.map_cons, List.sum_cons, ih]; omega

theorem sum_zero {α : Type} (l : List α) {f : α → Nat} (h : ∀ x ∈ l, f x = 0) :
    (l.map f).sum = 0 := by
  induction l with
  | nil => rfl
  | cons x l ih =>
    simp [h x List.mem_cons_self, ih fun y hy => h y (List.mem_cons_of_mem _ hy)]

theorem sum_only {α : Type} [DecidableEq α] (l : List α) (hn : l.Nodup) (y : α)
    (n : Nat) : (l.map fun x => if x = y then n else 0).sum = if y ∈ l then n else 0 := by
  induction l with
  | nil => simp
  | cons x l ih =>
    obtain ⟨h1, h2⟩ := List.nodup_cons.mp hn
    simp only [List.map_cons, List.sum_cons, ih h2, List.mem_cons]
    by_cases hx : x = y
    · subst hx
      simp [h1]
    · simp [hx, Ne.symm hx]

/-- The messages connection `c` put into channels. -/
def put (c : Nat) (tr : Spec.Ep.Trace) : List Msg :=
  tr.filterMap fun e => match e with
    | (.route d, .routed _ m _) => if d = c then some m else none
    | _ => none

theorem put_sublist (c : Nat) (tr : Spec.Ep.Trace) : (put c tr).Sublist (Spec.Ep.settled c tr) := by
  induction tr with
  | nil => exact .slnil
  | cons x tr ih =>
    obtain ⟨a, o⟩ := x
    simp only [put, Spec.Ep.settled, List.filterMap_cons] at ih ⊢
    cases a <;> cases o <;> first | exact ih | skip
    · dsimp only
      split
      · exact ih
      · exact ih.cons₂ _
    · dsimp only
      split
      · exact ih
      · exact ih.cons _

theorem heard_eq (c : Nat) (tr : Spec.Ep.Trace) :
    Spec.Ep.heard c tr = (reads c tr).flatMap Spec.Ep.contents := by
  induction tr with
  | nil => rfl
  | cons x tr ih =>
    obtain ⟨a, o⟩ := x
    simp only [Spec.Ep.heard, reads, List.flatMap_cons, List.filterMap_cons] at ih ⊢
    cases a <;> first | exact ih | skip
    rename_i d r
    cases r <;> first | exact ih | skip
    dsimp only
    split
    · simp [ih]
    · exact ih

theorem flatMap_sublist {b c : List Bytes} (h : b.Sublist c) :
    (b.flatMap Spec.Ep.contents).Sublist (c.flatMap Spec.Ep.contents) := by
  induction h with
  | slnil => exact .slnil
  | cons x _ ih => exact ih.trans (List.sublist_append_right _ _)
  | cons_cons x _ ih => exact (List.Sublist.refl _).append ih

theorem flatMap_count_le {b c : List Bytes} (h : b.Sublist c) (m : Msg) :
    (b.flatMap Spec.Ep.contents).count m ≤ (c.flatMap Spec.Ep.contents).count m :=
  (flatMap_sublist h).count_le _

/-- Every message put into a channel was put there by one of the connections. -/
theorem routed_le (tr : Spec.Ep.Trace) (l : List Nat) (hn : l.Nodup) (m : Msg) (a : Addr)
    (h : ∀ x i m, (x, .routed i m a) ∈ tr → ∃ c ∈ l, x = .route c) :
    (routed tr).count (m, a) ≤ (l.map fun c => (put c tr).count m).sum := by
  induction tr with
  | nil => exact Nat.zero_le _
  | cons x tr ih =>
    have ih := ih fun x i m hx => h x i m (List.mem_cons_of_mem _ hx)
    have hstep : ∀ c, (put c (x :: tr)).count m = (put c [x]).count m + (put c tr).count m := by
      intro c
      rw [← List.count_append]
      simp only [put, ← List.filterMap_append, List.singleton_append]
    have hr : (routed (x :: tr)).count (m, a) = (routed [x]).count (m, a) + (routed tr).count (m, a) := by
      rw [← List.count_append]
      simp only [routed, ← List.filterMap_append, List.singleton_append]
    rw [hr, List.map_congr_left fun c _ => hstep c, sum_add]
    refine Nat.add_le_add ?_ ih
    obtain ⟨y, o⟩ := x
    by_cases ho : ∃ i, o = .routed i m a
    · obtain ⟨i, rfl⟩ := ho
      obtain ⟨c, hc, rfl⟩ := h y i m List.mem_cons_self
      have h1 : ∀ d, (put d [(.route c, .routed i m a)]).count m = if d = c then 1 else 0 := by
        intro d
        by_cases hd : d = c
        · simp [put, hd]
        · simp [put, hd, Ne.symm hd]
      rw [List.map_congr_left fun d _ => h1 d, sum_only l hn, if_pos hc]
      simp [routed]
    · have : (routed [(y, o)]).count (m, a) = 0 := by
        rw [List.count_eq_zero]
        intro hm
        simp only [routed, List.mem_filterMap, List.mem_singleton] at hm
        obtain ⟨z, rfl, hz⟩ := hm
        cases o <;> simp only [reduceCtorEq, Option.some.injEq] at hz
        cases hz
        exact ho ⟨_, rfl⟩
      omega

/-- Every packet put into one of some channels of the same peer arrived from there. -/
theorem into_le (fs : List (Addr × Bytes × Option Nat)) (l : List Nat) (hn : l.Nodup) (a : Addr)
    (h : ∀ x ∈ fs, ∀ d ∈ l, x.2.2 = some d → x.1 = a) (m : Msg) :
    (l.map fun d => ((fs.filterMap fun e => if e.2.2 = some d then some e.2.1 else none).flatMap
      Spec.Ep.contents).count m).sum ≤
    ((fs.filterMap fun e => if e.1 = a then some e.2.1 else none).flatMap
      Spec.Ep.contents).count m := by
  induction fs with
  | nil => simp [sum_zero]
  | cons x fs ih =>
    have ih := ih fun y hy => h y (List.mem_cons_of_mem _ hy)
    obtain ⟨b, p, r⟩ := x
    have h1 : ∀ d, ((((b, p, r) :: fs).filterMap fun e => if e.2.2 = some d then some e.2.1 else
        none).flatMap Spec.Ep.contents).count m = (if some d = r then (Spec.Ep.contents p).count m else 0) +
        ((fs.filterMap fun e => if e.2.2 = some d then some e.2.1 else none).flatMap
          Spec.Ep.contents).count m := by
      intro d
      simp only [List.filterMap_cons]
      by_cases hd : r = some d
      · simp [hd]
      · simp [hd, Ne.symm hd]
    rw [List.map_congr_left fun d _ => h1 d, sum_add]
    cases r with
    | none =>
      rw [sum_zero l (by simp)]
      simp only [List.filterMap_cons]
      split <;> simp at * <;> omega
    | some d =>
      have h2 : (l.map fun c => if some c = some d then (Spec.Ep.contents p).count m else 0) =
          l.map fun c => if c = d then (Spec.Ep.contents p).count m else 0 := by simp
      rw [h2, sum_only l hn]
      by_cases hd : d ∈ l
      · have := h _ List.mem_cons_self d hd rfl
        dsimp only at this
        simp only [List.filterMap_cons, this, if_true, hd, List.flatMap_cons, List.count_append]
        omega
      · simp only [hd, if_false, List.filterMap_cons]
        split <;> simp at * <;> omega

theorem nodup_map_on {α β : Type} {f : α → β} (l : List α) (hn : l.Nodup)
    (h : ∀ x ∈ l, ∀ y ∈ l, f x = f y → x = y) : (l.map f).Nodup := by
  induction l with
  | nil => exact List.nodup_nil
  | cons x l ih =>
    obtain ⟨h1, h2⟩ := List.nodup_cons.mp hn
    refine List.nodup_cons.mpr ⟨fun hm => ?_, ih h2 fun y hy z hz =>
      h y (List.mem_cons_of_mem _ hy) z (List.mem_cons_of_mem _ hz)⟩
    obtain ⟨y, hy, hxy⟩ := List.mem_map.mp hm
    rw [h y (List.mem_cons_of_mem _ hy) x List.mem_cons_self hxy] at hy
    exact h1 hy

/-- Whatever is put into a channel was received by a connection, and its address is reported. -/
theorem routed_by {tr : Spec.Ep.Trace} {s : Ep.State} {dg : Bool} (e : Exec (Ep.step dg) Ep.init tr s)
    {x : Ep.Action} {i : Nat} {m : Msg} {a : Addr} (h : (x, .routed i m a) ∈ tr) :
    ∃ c, x = .route c ∧ Spec.Ep.Shown tr (.opened c a) := by
  obtain ⟨t, u, rfl⟩ := List.append_of_mem h
  rw [List.append_cons] at e
  obtain ⟨s1, e1, e2⟩ := e.split
  obtain ⟨s0, e0, hs⟩ := e1.last
  have hm := Ep.move_of_step hs
  generalize hx : Ep.Obs.routed i m a = o at hm
  have hh := (Ep.good_hist e0)
  cases hm
  case put c j m ms hw hrx hq =>
    cases hx
    refine ⟨c, rfl, (hh.2.conns c ?_).mono _⟩
    apply Decidable.byContradiction
    intro hn
    rw [hh.1.fresh.conns c (Nat.not_lt.mp hn)] at hw
    cases hw
  case proxyRecv => split at hx <;> cases hx
  all_goals cases hx

theorem routed_count {tr : Trace} {s : State} (e : Exec step init tr s) (m : Msg) (a : Addr) :
    (routed (app tr)).count (m, a) ≤ ((arrivals a tr).flatMap Spec.Ep.contents).count m := by
  obtain ⟨eE, eU⟩ := parts e
  have ht := told e
  have hl := link e
  have hU := (Udp.exec_inv eU).2.1
  let l := (List.range s.ep.connCount).filter fun c => (s.ep.conns c).addr = a
  have hn : l.Nodup := List.nodup_range.filter _
  have hop : ∀ c, c < s.ep.connCount → (s.chan c, (s.ep.conns c).addr) ∈ Spec.Udp.connections (socket tr) :=
    fun c hc => (ht.opened c _ ((Ep.good_hist eE).2.conns c hc)).2
  have h1 := routed_le (app tr) l hn m a (by
    intro x i m' hx
    obtain ⟨c, rfl, ho⟩ := routed_by eE hx
    obtain ⟨hc, hm⟩ := ht.opened c a ho
    refine ⟨c, List.mem_filter.mpr ⟨List.mem_range.mpr hc, ?_⟩, rfl⟩
    have h2 := (hU.conns _ hm).2.1
    have h3 := (hU.conns _ (hop c hc)).2.1
    exact decide_eq_true (h3.symm.trans h2))
  have h2 : (l.map fun c => (put c (app tr)).count m).sum ≤ (l.map fun c =>
      ((Spec.Udp.into (s.chan c) (socket tr)).flatMap Spec.Ep.contents).count m).sum := by
    refine sum_le l fun c hc => ?_
    have hc := List.mem_range.mp (List.mem_filter.mp hc).1
    refine Nat.le_trans ((put_sublist c _).count_le _) ?_
    refine Nat.le_trans ((C56_in_turn eE c).sublist.count_le _) ?_
    rw [heard_eq, ht.reads c hc]
    exact flatMap_count_le (Udp.shows_sublist _ _ (C57_gaps eU _)) m
  have h3 := into_le (Spec.Udp.fates (socket tr)) (l.map s.chan) (by
      refine nodup_map_on l hn fun c hc d hd => ?_
      exact hl.inj c d (List.mem_range.mp (List.mem_filter.mp hc).1)
        (List.mem_range.mp (List.mem_filter.mp hd).1)) a (by
      intro x hx d hd hxd
      obtain ⟨c, hc, rfl⟩ := List.mem_map.mp hd
      obtain ⟨hc, ha⟩ := List.mem_filter.mp hc
      have h4 := (hU.conns _ (hop c (List.mem_range.mp hc))).2.1
      exact (hU.peers x hx _ hxd).2.symm.trans (h4.trans (of_decide_eq_true ha))) m
  rw [List.map_map] at h3
  refine Nat.le_trans h1 (Nat.le_trans h2 (Nat.le_trans h3 ?_))
  rw [← arrivals_eq e]
  refine flatMap_count_le ?_ m
  simp only [Spec.Udp.arrivedFrom, ← hU.fate, List.filterMap_append, List.filterMap_map]
  exact List.sublist_append_left _ _

/-- The channels handed out with stubs and proxies. -/
def channels (tr : Spec.Ep.Trace) : List Nat :=
  tr.filterMap fun e => match e.2 with
    | .serving _ i _ => some i
    | .proxying _ i _ _ => some i
    | _ => none

theorem mem_channels {tr : Spec.Ep.Trace} {i : Nat} (h : i ∈ channels tr) :
    ∃ o id, Spec.Ep.Shown tr o ∧ Spec.Ep.Created i id o := by
  simp only [channels, List.mem_filterMap] at h
  obtain ⟨⟨x, o⟩, h1, h2⟩ := h
  cases o <;> simp only [reduceCtorEq, Option.some.injEq] at h2
  · cases h2
    exact ⟨_, _, ⟨x, h1⟩, .inl ⟨_, rfl⟩⟩
  · cases h2
    exact ⟨_, _, ⟨x, h1⟩, .inr ⟨_, _, rfl⟩⟩

theorem channels_nodup {dg : Bool} {tr : Spec.Ep.Trace} {s : Ep.State}
    (e : Exec (Ep.step dg) Ep.init tr s) : (channels tr).Nodup := by
  induction e with
  | nil => exact List.nodup_nil
  | @snoc tr s s' a o e hs ih =>
    rw [channels, List.filterMap_append]
    refine List.nodup_append.mpr ⟨ih, ?_, ?_⟩
    · cases o <;> simp
    · intro i hi j hj hij
      subst hij
      obtain ⟨o', id, h1, h2⟩ := mem_channels (tr := [(a, o)]) hj
      obtain ⟨y, hy⟩ := h1
      cases List.mem_singleton.mp hy
      have h3 := Ep.task_new e i (Ep.created_open (Ep.good_hist e).1 (Ep.move_of_step hs) h2).1
      obtain ⟨o', id', h4, h5⟩ := mem_channels hi
      rcases h5 with ⟨k, rfl⟩ | ⟨p, r, rfl⟩
      · obtain ⟨h6, h7, _⟩ := (Ep.made e).stub k i id' h4
        exact h3.1 k h6 h7
      · obtain ⟨h6, h7, _⟩ := (Ep.made e).proxy p i id' r h4
        exact h3.2 p h6 h7

theorem routedTo_le (tr : Spec.Ep.Trace) (l : List Nat) (hn : l.Nodup) (x : Msg × Addr) :
    (l.map fun i => (Spec.Ep.routedTo i tr).count x).sum ≤ (routed tr).count x := by
  induction tr with
  | nil => rw [sum_zero l (by simp [Spec.Ep.routedTo])]; exact Nat.zero_le _
  | cons y tr ih =>
    have h1 : ∀ c, (Spec.Ep.routedTo c (y :: tr)).count x =
        (Spec.Ep.routedTo c [y]).count x + (Spec.Ep.routedTo c tr).count x := by
      intro c
      rw [← List.count_append]
      simp only [Spec.Ep.routedTo, ← List.filterMap_append, List.singleton_append]
    have h2 : (routed (y :: tr)).count x = (routed [y]).count x + (routed tr).count x := by
      rw [← List.count_append]
      simp only [routed, ← List.filterMap_append, List.singleton_append]
    rw [h2, List.map_congr_left fun c _ => h1 c, sum_add]
    refine Nat.add_le_add ?_ ih
    obtain ⟨z, o⟩ := y
    by_cases ho : ∃ i m a, o = .routed i m a
    · obtain ⟨i, m, a, rfl⟩ := ho
      have h3 : ∀ d, (Spec.Ep.routedTo d [(z, .routed i m a)]).count x =
          if d = i then [(m, a)].count x else 0 := by
        intro d
        by_cases hd : d = i
        · simp [Spec.Ep.routedTo, hd]
        · simp [Spec.Ep.routedTo, hd, Ne.symm hd]
      rw [List.map_congr_left fun d _ => h3 d, sum_only l hn]
      split
      · simp [routed]
      · exact Nat.zero_le _
    · rw [sum_zero l]
      · exact Nat.zero_le _
      · intro i _
        cases o <;> first | rfl | exact (ho ⟨_, _, _, rfl⟩).elim

theorem returned_le {dg : Bool} {tr : Spec.Ep.Trace} {s : Ep.State}
    (e : Exec (Ep.step dg) Ep.init tr s) (x : Msg × Addr) (t : Spec.Ep.Trace) (h : ∀ y ∈ t, y ∈ tr) :
    (t.flatMap fun y => returnedBy tr y.2).count x ≤
      ((channels t).map fun i => (Spec.Ep.routedTo i tr).count x).sum := by
  induction t with
  | nil => exact Nat.zero_le _
  | cons y t ih =>
    have ih := ih fun z hz => h z (List.mem_cons_of_mem _ hz)
    have hy := h y List.mem_cons_self
    obtain ⟨z, o⟩ := y
    rw [List.flatMap_cons, List.count_append]
    cases o
    case serving k i id =>
      simp only [channels, List.filterMap_cons, List.map_cons, List.sum_cons]
      exact Nat.add_le_add ((C56_stub e ⟨z, hy⟩).sublist.count_le _) ih
    case proxying p i id r =>
      simp only [channels, List.filterMap_cons, List.map_cons, List.sum_cons]
      refine Nat.add_le_add ?_ ih
      refine Nat.le_trans (((C55_remote e ⟨z, hy⟩).sublist.map _).count_le _) ?_
      rw [List.map_map]
      refine List.Sublist.count_le _ ?_
      refine List.Sublist.trans ?_ (List.filter_sublist (p := fun x => x.2 = r))
      rw [List.map_congr_left (g := _root_.id)]
      · simp
      · intro a ha
        have := of_decide_eq_true (List.mem_filter.mp ha).2
        obtain ⟨m, b⟩ := a
        cases this
        rfl
    all_goals simpa [returnedBy, channels] using ih

end Rsomeip.Rt.Node
