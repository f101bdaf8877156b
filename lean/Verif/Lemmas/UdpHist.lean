import Verif.Lemmas.Udp

/-! # Histories of the UDP socket -/

namespace Rsomeip.Rt.Udp

open Spec.Udp

theorem shows_right (os : List (Option Bytes)) (ps qs : List Bytes) (h : Shows os ps) :
    Shows os (ps ++ qs) := by
  induction os generalizing ps with
  | nil => trivial
  | cons o os ih =>
    cases ps with
    | nil => cases o <;> exact h.elim
    | cons p ps => cases o with
      | none => exact ih ps h
      | some o => exact ⟨h.1, ih ps h.2⟩

theorem shows_left (xs ys : List (Option Bytes)) (ps : List Bytes) (h : Shows (xs ++ ys) ps) :
    Shows xs ps := by
  induction xs generalizing ps with
  | nil => trivial
  | cons o os ih =>
    cases ps with
    | nil => cases o <;> exact h.elim
    | cons p ps => cases o with
      | none => exact ih ps h
      | some o => exact ⟨h.1, ih ps h.2⟩

theorem shows_blank (xs ys : List (Option Bytes)) (p : Option Bytes) (ps : List Bytes)
    (h : Shows (xs ++ p :: ys) ps) : Shows (xs ++ none :: ys) ps := by
  induction xs generalizing ps with
  | nil =>
    cases ps with
    | nil => cases p <;> exact h.elim
    | cons q ps => cases p with
      | none => exact h
      | some o => exact h.2
  | cons o os ih =>
    cases ps with
    | nil => cases o <;> exact h.elim
    | cons p ps => cases o with
      | none => exact ih ps h
      | some o => exact ⟨h.1, ih ps h.2⟩

theorem shows_push (os : List (Option Bytes)) (ps : List Bytes) (p : Bytes) (h : Shows os ps)
    (hl : os.length = ps.length) : Shows (os ++ [some p]) (ps ++ [p]) := by
  induction os generalizing ps with
  | nil =>
    cases ps with
    | nil => exact ⟨rfl, trivial⟩
    | cons q ps => simp at hl
  | cons o os ih =>
    cases ps with
    | nil => simp at hl
    | cons q ps =>
      have hl' : os.length = ps.length := by simpa using hl
      cases o with
      | none => exact ih ps h hl'
      | some o => exact ⟨h.1, ih ps h.2 hl'⟩

theorem shows_sublist (os : List (Option Bytes)) (ps : List Bytes) (h : Shows os ps) :
    (os.filterMap id).Sublist ps := by
  induction os generalizing ps with
  | nil => exact List.nil_sublist _
  | cons o os ih =>
    cases ps with
    | nil => cases o <;> exact h.elim
    | cons p ps => cases o with
      | none => exact (ih ps h).cons _
      | some o =>
        obtain ⟨rfl, h⟩ := h
        exact (ih ps h).cons_cons _

/-- The packets still in the channel, with `none` for the overwritten ones. -/
def Chan.rest (c : Chan) : List (Option Bytes) := List.replicate c.missed none ++ c.queue.map some

/-- What holds of a state and the trace that led to it. -/
structure Hist (tr : Trace) (s : State) : Prop where
  fate : (fates tr).map (fun e => (e.1, e.2.1)) ++ s.pc.inflight = arrived tr
  peers : ∀ e ∈ fates tr, ∀ c, e.2.2 = some c → c < s.chanCount ∧ (s.chans c).peer = e.1
  low : ∀ c, s.chanCount ≤ c → seen c tr = []
  exact : ∀ c, (s.chans c).rx = true → Shows (seen c tr ++ (s.chans c).rest) (into c tr) ∧
    (seen c tr ++ (s.chans c).rest).length = (into c tr).length
  shows : ∀ c, Shows (seen c tr) (into c tr)
  conns : ∀ e ∈ connections tr, e.1 < s.chanCount ∧ (s.chans e.1).peer = e.2 ∧
    (s.chans e.1).held = true
  connsNodup : ((connections tr).map Prod.fst).Nodup

theorem fates_snoc (tr : Trace) (x : Action × Obs) : fates (tr ++ [x]) = fates tr ++ fates [x] := by
  simp only [fates, List.filterMap_append]

theorem arrived_snoc (tr : Trace) (x : Action × Obs) :
    arrived (tr ++ [x]) = arrived tr ++ arrived [x] := by
  simp only [arrived, List.filterMap_append]

theorem into_snoc (c : Nat) (tr : Trace) (x : Action × Obs) :
    into c (tr ++ [x]) = into c tr ++ into c [x] := by
  simp only [into, fates_snoc, List.filterMap_append]

theorem seen_snoc (c : Nat) (tr : Trace) (x : Action × Obs) :
    seen c (tr ++ [x]) = seen c tr ++ seen c [x] := by
  simp only [seen, List.flatMap_append]

theorem connections_snoc (tr : Trace) (x : Action × Obs) :
    connections (tr ++ [x]) = connections tr ++ connections [x] := by
  simp only [connections, List.filterMap_append]

section
variable {s s' : State} {a : Action} {o : Obs} {tr : Trace}

theorem hist_fate (h : Hist tr s) (m : Move s a o s') :
    (fates (tr ++ [(a, o)])).map (fun e => (e.1, e.2.1)) ++ s'.pc.inflight =
      arrived (tr ++ [(a, o)]) := by
  have := h.fate
  rw [fates_snoc, arrived_snoc, List.map_append, ← this]
  cases m <;> simp_all [fates, arrived, Pc.inflight, maxDatagramSize]

theorem hist_peers (t : Tables s) (h : Hist tr s) (m : Move s a o s') :
    ∀ e ∈ fates (tr ++ [(a, o)]), ∀ c, e.2.2 = some c →
      c < s'.chanCount ∧ (s'.chans c).peer = e.1 := by
  intro e he c hc
  rw [fates_snoc] at he
  rcases List.mem_append.mp he with he | he
  · obtain ⟨h1, h2⟩ := h.peers e he c hc
    obtain ⟨h3, h4⟩ := peer_stable m c h1
    exact ⟨h3, h4.trans h2⟩
  · have h2 := t.pc
    cases m <;> simp [fates] at he
    all_goals subst he
    all_goals cases hc
    all_goals
      obtain ⟨h3, h4⟩ := h2 _ c (by rw [‹s.pc = _›]; rfl)
      exact ⟨h3, by simp only [upd_same, Chan.push_peer, h4]⟩

theorem hist_low (h : Hist tr s) (m : Move s a o s') :
    ∀ c, s'.chanCount ≤ c → seen c (tr ++ [(a, o)]) = [] := by
  intro c hc
  have hle : s.chanCount ≤ c := by cases m <;> simp_all <;> omega
  rw [seen_snoc, h.low c hle]
  cases m <;> simp [seen] <;> omega

theorem push_rest (c : Chan) (p : Bytes) (os : List (Option Bytes)) (ps : List Bytes)
    (hcap : 0 < c.cap) (h : Shows (os ++ c.rest) ps) (hl : (os ++ c.rest).length = ps.length) :
    Shows (os ++ (c.push p).rest) (ps ++ [p]) ∧
      (os ++ (c.push p).rest).length = (ps ++ [p]).length := by
  simp only [Chan.push]
  split
  · simp only [Chan.rest, List.map_append, List.map_cons, List.map_nil, ← List.append_assoc] at h hl ⊢
    refine ⟨shows_push _ _ _ h hl, ?_⟩
    simp only [List.length_append] at hl ⊢
    simp only [List.length_cons, List.length_nil]
    omega
  · rename_i hf
    simp only [Chan.rest] at h hl ⊢
    cases hq : c.queue with
    | nil => rw [hq] at hf; simp at hf; omega
    | cons q qs =>
      rw [hq] at h hl
      simp only [List.map_cons, List.drop_succ_cons, List.drop_zero, List.map_append, List.map_nil]
        at h hl ⊢
      have h' : Shows (os ++ (List.replicate (c.missed + 1) none ++ qs.map some)) ps := by
        rw [List.replicate_succ', List.append_assoc, ← List.append_assoc]
        refine shows_blank _ _ (some q) ps ?_
        rw [List.append_assoc]
        exact h
      have hl' : (os ++ (List.replicate (c.missed + 1) none ++ qs.map some)).length = ps.length := by
        rw [← hl]; simp; omega
      rw [← List.append_assoc, ← List.append_assoc]
      rw [← List.append_assoc] at h' hl'
      refine ⟨shows_push _ _ _ h' hl', ?_⟩
      simp only [List.length_append, List.length_cons, List.length_nil] at hl' ⊢
      omega

theorem into_high (h : Hist tr s) (c : Nat) (hc : s.chanCount ≤ c) : into c tr = [] := by
  simp only [into, List.filterMap_eq_nil_iff]
  intro e he
  split
  · rename_i hec
    have := (h.peers e he c hec).1
    omega
  · rfl

theorem hist_exact (t : Tables s) (h : Hist tr s) (m : Move s a o s') :
    ∀ c, (s'.chans c).rx = true →
      Shows (seen c (tr ++ [(a, o)]) ++ (s'.chans c).rest) (into c (tr ++ [(a, o)])) ∧
      (seen c (tr ++ [(a, o)]) ++ (s'.chans c).rest).length = (into c (tr ++ [(a, o)])).length := by
  intro c hrx
  have h1 := h.exact c
  rw [seen_snoc, into_snoc]
  cases m
  case deliver a p c' hpc hrx' =>
    by_cases hc : c = c'
    · subst hc
      have hcap := (t.caps c (t.pc a c (by rw [hpc]; rfl)).1).1
      obtain ⟨h2, h3⟩ := h1 hrx'
      simpa [seen, into, fates, upd_same] using push_rest (s.chans c) p _ _ hcap h2 h3
    · simp only [upd_ne _ _ hc] at hrx ⊢
      simpa [seen, into, fates, Ne.symm hc] using h1 hrx
  case fill a p c' hpc hrx' =>
    by_cases hc : c = c'
    · subst hc
      have hcap := (t.caps c (t.pc a c (by rw [hpc]; rfl)).1).1
      obtain ⟨h2, h3⟩ := h1 hrx'
      simpa [seen, into, fates, upd_same] using push_rest (s.chans c) p _ _ hcap h2 h3
    · simp only [upd_ne _ _ hc] at hrx ⊢
      simpa [seen, into, fates, Ne.symm hc] using h1 hrx
  case enqueue a p l hpc hl hrx' hlen =>
    by_cases hc : c = s.chanCount
    · subst hc
      rw [h.low _ (Nat.le_refl _), into_high h _ (Nat.le_refl _)]
      simp [seen, into, fates, upd_same, Chan.rest, Shows]
    · simp only [upd_ne _ _ hc] at hrx ⊢
      simpa [seen, into, fates] using h1 hrx
  case connect a =>
    by_cases hc : c = s.chanCount
    · subst hc
      rw [h.low _ (Nat.le_refl _), into_high h _ (Nat.le_refl _)]
      simp [seen, into, fates, upd_same, Chan.rest, Shows]
    · simp only [upd_ne _ _ hc] at hrx ⊢
      simpa [seen, into, fates] using h1 hrx
  case lagged c' hc' hrx' hh hm =>
    by_cases hc : c = c'
    · subst hc
      simpa [seen, into, fates, upd_same, Chan.rest] using h1 hrx'
    · simp only [upd_ne _ _ hc] at hrx ⊢
      simpa [seen, into, fates, Ne.symm hc] using h1 hrx
  case packet c' p q hc' hrx' hh hm hq =>
    by_cases hc : c = c'
    · subst hc
      simpa [seen, into, fates, upd_same, Chan.rest, hm, hq] using h1 hrx'
    · simp only [upd_ne _ _ hc] at hrx ⊢
      simpa [seen, into, fates, Ne.symm hc] using h1 hrx
  case dropReceiver c' hc' hrx' hh =>
    by_cases hc : c = c'
    · subst hc
      simp [upd_same] at hrx
    · simp only [upd_ne _ _ hc] at hrx ⊢
      simpa [seen, into, fates, Ne.symm hc] using h1 hrx
  case accept l c' a q hl hrx' hq =>
    by_cases hc : c = c'
    · subst hc
      simp only [upd_same] at hrx
      simpa [seen, into, fates, upd_same, Chan.rest] using h1 hrx
    · simp only [upd_ne _ _ hc] at hrx ⊢
      simpa [seen, into, fates] using h1 hrx
  case dropListener l hl hrx' =>
    dsimp only at hrx ⊢
    split at hrx
    · cases hrx
    · rename_i hn
      rw [if_neg hn]
      simpa [seen, into, fates] using h1 hrx
  all_goals simpa [seen, into, fates] using h1 hrx

theorem hist_shows (h : Hist tr s) (m : Move s a o s') :
    ∀ c, Shows (seen c (tr ++ [(a, o)])) (into c (tr ++ [(a, o)])) := by
  intro c
  have h1 := h.exact c
  have h2 := h.shows c
  rw [seen_snoc, into_snoc]
  cases m
  case lagged c' hc' hrx' hh hm =>
    by_cases hc : c = c'
    · subst hc
      have := (h1 hrx').1
      rw [Chan.rest, ← List.append_assoc] at this
      simpa [seen, into, fates] using shows_left _ _ _ this
    · simpa [seen, into, fates, Ne.symm hc] using h2
  case packet c' p q hc' hrx' hh hm hq =>
    by_cases hc : c = c'
    · subst hc
      have := (h1 hrx').1
      rw [Chan.rest, hm, hq, List.map_cons, List.replicate_zero, List.nil_append,
        List.append_cons] at this
      simpa [seen, into, fates] using shows_left _ _ _ this
    · simpa [seen, into, fates, Ne.symm hc] using h2
  all_goals exact shows_right _ _ _ (by simpa [seen] using h2)

theorem held_stable (m : Move s a o s') (c : Nat) (hc : c < s.chanCount)
    (hh : (s.chans c).held = true) : (s'.chans c).held = true := by
  cases m <;> grind [upd, Chan.push_held]

theorem hist_conns (t : Tables s) (h : Hist tr s) (m : Move s a o s') :
    ∀ e ∈ connections (tr ++ [(a, o)]), e.1 < s'.chanCount ∧ (s'.chans e.1).peer = e.2 ∧
      (s'.chans e.1).held = true := by
  intro e he
  rw [connections_snoc] at he
  rcases List.mem_append.mp he with he | he
  · obtain ⟨h1, h2, h3⟩ := h.conns e he
    obtain ⟨h4, h5⟩ := peer_stable m _ h1
    exact ⟨h4, h5.trans h2, held_stable m _ h1 h3⟩
  · cases m <;> simp [connections] at he
    all_goals subst he
    case connect => simp [upd_same]
    case accept l c a q hl hrx hq =>
      obtain ⟨h1, h2, _⟩ := t.queues l (c, a) (by rw [hq]; simp)
      exact ⟨h1, by simp only [upd_same]; exact h2, by simp only [upd_same]⟩

theorem hist_nodup (t : Tables s) (h : Hist tr s) (m : Move s a o s') :
    ((connections (tr ++ [(a, o)])).map Prod.fst).Nodup := by
  rw [connections_snoc, List.map_append]
  have h1 := h.connsNodup
  cases m
  case connect a =>
    simp only [connections, List.filterMap_cons, List.filterMap_nil, List.map_cons, List.map_nil]
    rw [List.nodup_append]
    refine ⟨h1, by simp, ?_⟩
    intro x hx y hy
    obtain ⟨e, he, rfl⟩ := List.mem_map.mp hx
    have := (h.conns e he).1
    simp only [List.mem_singleton] at hy
    omega
  case accept l c a q hl hrx hq =>
    simp only [connections, List.filterMap_cons, List.filterMap_nil, List.map_cons, List.map_nil]
    rw [List.nodup_append]
    refine ⟨h1, by simp, ?_⟩
    intro x hx y hy
    obtain ⟨e, he, rfl⟩ := List.mem_map.mp hx
    have h2 := (h.conns e he).2.2
    have h3 := (t.queues l (c, a) (by rw [hq]; simp)).2.2.2
    simp only [List.mem_singleton] at hy
    rintro rfl
    rw [hy] at h2
    exact absurd (h2.symm.trans h3) (by simp)
  all_goals simpa [connections] using h1

theorem hist_init : Hist [] init := by
  constructor
  case fate => rfl
  case peers => intro e he; cases he
  case low => intro c _; rfl
  case exact => intro c h; cases h
  case shows => intro c; trivial
  case conns => intro e he; cases he
  case connsNodup => exact List.nodup_nil

theorem hist_step (t : Tables s) (h : Hist tr s) (m : Move s a o s') : Hist (tr ++ [(a, o)]) s' :=
  ⟨hist_fate h m, hist_peers t h m, hist_low h m, hist_exact t h m, hist_shows h m,
    hist_conns t h m, hist_nodup t h m⟩

/-- What the trace says about listeners, dropped receivers and new connections. -/
structure Calls (tr : Trace) (s : State) : Prop where
  caps : ∀ x ∈ listeners tr, x.1 < s.backlogCount ∧ (s.backlogs x.1).cap = x.2
  latest : ∀ l, s.listener = some l → ∃ n rest, listeners tr = (l, n) :: rest
  none : s.listener = none → ∀ l n rest, listeners tr = (l, n) :: rest →
    (.dropListener l, .none) ∈ tr
  dropped : ∀ l, l < s.backlogCount → (s.backlogs l).rx = false → (.dropListener l, .none) ∈ tr
  receivers : ∀ c, c < s.chanCount → (s.chans c).rx = false → (.dropReceiver c, .none) ∈ tr ∨
    ∃ l, (.dropListener l, .none) ∈ tr
  admitted : ∀ a p c, (.task, .admitted a p c) ∈ tr → c < s.chanCount ∧
    (into c tr = [] ∧ (s.pc = .queued a p c ∨ (s.chans c).rx = false) ∨
      ∃ rest, into c tr = p :: rest)
  pending : ∀ l, ∀ e ∈ (s.backlogs l).queue, ∃ p, (.task, .admitted e.2 p e.1) ∈ tr
  accepted : ∀ l c a, (.accept l, .connection c a) ∈ tr → ∃ p, (.task, .admitted a p c) ∈ tr
  queued : ∀ a p c, s.pc = .queued a p c → (.task, .admitted a p c) ∈ tr
  arrived : ∀ a p c, (.task, .admitted a p c) ∈ tr → (a, p) ∈ arrived tr

theorem listeners_snoc (tr : Trace) (x : Action × Obs) :
    listeners (tr ++ [x]) = listeners [x] ++ listeners tr := by
  simp only [listeners, List.filterMap_append, List.reverse_append]

theorem calls_caps (h : Calls tr s) (m : Move s a o s') :
    ∀ x ∈ listeners (tr ++ [(a, o)]), x.1 < s'.backlogCount ∧ (s'.backlogs x.1).cap = x.2 := by
  intro x hx
  rw [listeners_snoc] at hx
  rcases List.mem_append.mp hx with hx | hx
  · cases m <;> simp [listeners] at hx
    subst hx
    simp [upd_same]
  · have h1 := h.caps x hx
    cases m <;> grind [upd]

theorem calls_latest (h : Calls tr s) (m : Move s a o s') :
    ∀ l, s'.listener = some l → ∃ n rest, listeners (tr ++ [(a, o)]) = (l, n) :: rest := by
  intro l hl
  have h1 := h.latest
  rw [listeners_snoc]
  cases m
  case listen n ho hn hpc =>
    cases hl
    exact ⟨n, listeners tr, rfl⟩
  case gone => cases hl
  all_goals exact h1 l hl

theorem calls_none (t : Tables s) (h : Calls tr s) (m : Move s a o s') :
    s'.listener = none → ∀ l n rest, listeners (tr ++ [(a, o)]) = (l, n) :: rest →
      (.dropListener l, .none) ∈ tr ++ [(a, o)] := by
  intro hn l n rest hl
  rw [listeners_snoc] at hl
  have h1 := h.none
  cases m
  case gone a p l' hpc hl' hrx =>
    obtain ⟨n', rest', h2⟩ := h.latest l' hl'
    have h3 : (l, n) :: rest = (l', n') :: rest' := hl.symm.trans h2
    cases h3
    exact List.mem_append_left _ (h.dropped l (t.listener l hl') hrx)
  case listen => cases hn
  all_goals exact List.mem_append_left _ (h1 hn l n rest hl)

theorem calls_dropped (h : Calls tr s) (m : Move s a o s') :
    ∀ l, l < s'.backlogCount → (s'.backlogs l).rx = false →
      (.dropListener l, .none) ∈ tr ++ [(a, o)] := by
  intro l hl hrx
  have h1 := h.dropped l
  cases m <;> grind [upd]

theorem calls_receivers (h : Calls tr s) (m : Move s a o s') :
    ∀ c, c < s'.chanCount → (s'.chans c).rx = false → (.dropReceiver c, .none) ∈ tr ++ [(a, o)] ∨
      ∃ l, (.dropListener l, .none) ∈ tr ++ [(a, o)] := by
  intro c hc hrx
  have h1 := h.receivers c
  cases m <;> grind [upd, Chan.push_rx]

theorem rx_stable (m : Move s a o s') (c : Nat) (hc : c < s.chanCount)
    (hh : (s.chans c).rx = false) : (s'.chans c).rx = false := by
  cases m <;> grind [upd, Chan.push_rx]

theorem calls_admitted (t : Tables s) (g : Hist tr s) (h : Calls tr s) (m : Move s a o s') :
    ∀ b p c, (.task, .admitted b p c) ∈ tr ++ [(a, o)] → c < s'.chanCount ∧
      (into c (tr ++ [(a, o)]) = [] ∧ (s'.pc = .queued b p c ∨ (s'.chans c).rx = false) ∨
        ∃ rest, into c (tr ++ [(a, o)]) = p :: rest) := by
  intro b p c hm
  rcases List.mem_append.mp hm with hm | hm
  · obtain ⟨h1, h2⟩ := h.admitted b p c hm
    refine ⟨(peer_stable m c h1).1, ?_⟩
    rw [into_snoc]
    rcases h2 with ⟨h2, h3⟩ | ⟨rest, h2⟩
    · rw [h2]
      rcases h3 with h3 | h3
      · clear hm
        cases m
        case fill a' p' c' hpc hrx =>
          cases hpc.symm.trans h3
          right
          exact ⟨[], by simp [into, fates]⟩
        case spill a' p' c' hpc hrx =>
          cases hpc.symm.trans h3
          left
          exact ⟨by simp [into, fates], .inr hrx⟩
        case connect => exact .inl ⟨by simp [into, fates], .inl h3⟩
        case listenZero => exact .inl ⟨by simp [into, fates], .inl h3⟩
        case listen => exact .inl ⟨by simp [into, fates], .inl h3⟩
        case accept => exact .inl ⟨by simp [into, fates], .inl h3⟩
        case acceptNone => exact .inl ⟨by simp [into, fates], .inl h3⟩
        case dropListener => exact .inl ⟨by simp [into, fates], .inl h3⟩
        case lagged => exact .inl ⟨by simp [into, fates], .inl h3⟩
        case packet => exact .inl ⟨by simp [into, fates], .inl h3⟩
        case closed => exact .inl ⟨by simp [into, fates], .inl h3⟩
        case dropReceiver => exact .inl ⟨by simp [into, fates], .inl h3⟩
        case close => exact .inl ⟨by simp [into, fates], .inl h3⟩
        all_goals exact absurd ((‹s.pc = _›).symm.trans h3) (by simp)
      · have h4 := rx_stable m c h1 h3
        left
        refine ⟨?_, .inr h4⟩
        cases m <;> simp [into, fates]
        all_goals rintro rfl; simp_all
    · right
      exact ⟨rest ++ into c [(a, o)], by rw [h2]; rfl⟩
  · cases m <;> simp at hm
    case enqueue =>
      obtain ⟨rfl, rfl, rfl⟩ := hm
      refine ⟨by simp, .inl ⟨?_, .inl rfl⟩⟩
      rw [into_snoc, into_high g _ (Nat.le_refl _)]
      rfl

theorem calls_pending (h : Calls tr s) (m : Move s a o s') :
    ∀ l, ∀ e ∈ (s'.backlogs l).queue, ∃ p, (.task, .admitted e.2 p e.1) ∈ tr ++ [(a, o)] := by
  intro l e he
  have old : e ∈ (s.backlogs l).queue → ∃ p, (.task, .admitted e.2 p e.1) ∈ tr ++ [(a, o)] :=
    fun he => (h.pending l e he).elim fun p hp => ⟨p, List.mem_append_left _ hp⟩
  cases m
  case enqueue a p l' hpc hl hrx hlen =>
    by_cases hl' : l = l'
    · subst hl'
      simp only [upd_same, List.mem_append, List.mem_singleton] at he
      rcases he with he | rfl
      · exact old he
      · exact ⟨p, by simp⟩
    · simp only [upd_ne _ _ hl'] at he
      exact old he
  case listen n hn hpc =>
    by_cases hl' : l = s.backlogCount
    · subst hl'
      simp only [upd_same] at he
      cases he
    · simp only [upd_ne _ _ hl'] at he
      exact old he
  case accept l' c a q hl hrx hq =>
    by_cases hl' : l = l'
    · subst hl'
      simp only [upd_same] at he
      exact old (by rw [hq]; exact List.mem_cons_of_mem _ he)
    · simp only [upd_ne _ _ hl'] at he
      exact old he
  case dropListener l' hl hrx =>
    by_cases hl' : l = l'
    · subst hl'
      simp only [upd_same] at he
      cases he
    · simp only [upd_ne _ _ hl'] at he
      exact old he
  all_goals exact old he

theorem calls_accepted (h : Calls tr s) (m : Move s a o s') :
    ∀ l c b, (.accept l, .connection c b) ∈ tr ++ [(a, o)] →
      ∃ p, (.task, .admitted b p c) ∈ tr ++ [(a, o)] := by
  intro l c b hm
  rcases List.mem_append.mp hm with hm | hm
  · exact (h.accepted l c b hm).elim fun p hp => ⟨p, List.mem_append_left _ hp⟩
  · cases m <;> simp at hm
    case accept l' c' b' q hl hrx hq =>
      obtain ⟨rfl, rfl, rfl⟩ := hm
      exact (h.pending l (c, b) (by rw [‹(s.backlogs l).queue = _›]; simp)).elim fun p hp =>
        ⟨p, List.mem_append_left _ hp⟩

theorem calls_queued (h : Calls tr s) (m : Move s a o s') :
    ∀ b p c, s'.pc = .queued b p c → (.task, .admitted b p c) ∈ tr ++ [(a, o)] := by
  intro b p c hpc
  have h1 := h.queued b p c
  cases m <;> simp_all

theorem calls_arrived (g : Hist tr s) (h : Calls tr s) (m : Move s a o s') :
    ∀ b p c, (.task, .admitted b p c) ∈ tr ++ [(a, o)] → (b, p) ∈ arrived (tr ++ [(a, o)]) := by
  intro b p c hm
  rw [arrived_snoc]
  refine List.mem_append_left _ ?_
  rcases List.mem_append.mp hm with hm | hm
  · exact h.arrived b p c hm
  · cases m <;> simp at hm
    case enqueue a' p' l hpc _ _ _ =>
      obtain ⟨rfl, rfl, rfl⟩ := hm
      rw [← g.fate, ‹s.pc = _›]
      exact List.mem_append_right _ (List.mem_singleton.mpr rfl)

theorem calls_init : Calls [] init := by
  constructor
  case caps => intro x hx; cases hx
  case latest => intro l h; cases h
  case none => intro _ l n rest h; cases h
  case dropped => intro l h; cases h
  case receivers => intro c h; cases h
  case admitted => intro a p c h; cases h
  case pending => intro l e h; cases h
  case accepted => intro l c a h; cases h
  case queued => intro l c a h; cases h
  case arrived => intro l c a h; cases h

theorem exec_inv (e : Exec step init tr s) : Tables s ∧ Hist tr s ∧ Calls tr s := by
  induction e with
  | nil => exact ⟨tables_init, hist_init, calls_init⟩
  | snoc _ hs ih =>
    have m := move_of_step hs
    obtain ⟨t, h, c⟩ := ih
    exact ⟨tables_step t m, hist_step t h m,
      ⟨calls_caps c m, calls_latest c m, calls_none t c m, calls_dropped c m, calls_receivers c m,
        calls_admitted t h c m, calls_pending c m, calls_accepted c m,
        calls_queued c m, calls_arrived h c m⟩⟩

end

end Rsomeip.Rt.Udp
