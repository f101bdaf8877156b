import Verif.Lemmas.Map
import Verif.Spec.Udp

/-! # Lemmas about the UDP socket -/

namespace Rsomeip.Rt

theorem upd_same {α : Type} (f : Nat → α) (i : Nat) (v : α) : upd f i v i = v := by simp [upd]

theorem upd_ne {α : Type} (f : Nat → α) {i j : Nat} (v : α) (h : j ≠ i) : upd f i v j = f j := by
  simp [upd, h]

namespace Udp

/-- All ways a step can go. -/
inductive Move (s : State) : Action → Obs → State → Prop where
  | datagram (a p) (hpc : s.pc = .idle) :
      Move s (.datagram a p) .none { s with pc := .lookup a (p.take maxDatagramSize) }
  | failure (hpc : s.pc = .idle) : Move s .failure .none { s with pc := .stopped }
  | hit (a p c) (hpc : s.pc = .lookup a p) (hg : s.receivers.get a = some c) :
      Move s .task .none { s with pc := .found a p c }
  | miss (a p) (hpc : s.pc = .lookup a p) (hg : s.receivers.get a = none) :
      Move s .task .none { s with pc := .admit a p }
  | deliver (a p c) (hpc : s.pc = .found a p c) (hrx : (s.chans c).rx = true) :
      Move s .task (.routed a p c)
        { s with chans := upd s.chans c ((s.chans c).push p), pc := .idle }
  | refuse (a p c) (hpc : s.pc = .found a p c) (hrx : (s.chans c).rx = false) :
      Move s .task .none { s with pc := .stale a p }
  | remove (a p) (hpc : s.pc = .stale a p) :
      Move s .task .none { s with receivers := (s.receivers.remove a).2, pc := .admit a p }
  | noListener (a p) (hpc : s.pc = .admit a p) (hl : s.listener = none) :
      Move s .task (.lost a p .noListener) { s with pc := .idle }
  | enqueue (a p l) (hpc : s.pc = .admit a p) (hl : s.listener = some l)
      (hrx : (s.backlogs l).rx = true) (hlen : (s.backlogs l).queue.length < (s.backlogs l).cap) :
      Move s .task (.admitted a p s.chanCount)
        { s with
          chans := upd s.chans s.chanCount ⟨a, 32, [], 0, true, false⟩
          chanCount := s.chanCount + 1
          backlogs := upd s.backlogs l
            { s.backlogs l with queue := (s.backlogs l).queue ++ [(s.chanCount, a)] }
          pc := .queued a p s.chanCount }
  | full (a p l) (hpc : s.pc = .admit a p) (hl : s.listener = some l)
      (hrx : (s.backlogs l).rx = true) (hlen : ¬ (s.backlogs l).queue.length < (s.backlogs l).cap) :
      Move s .task (.lost a p .backlogFull) { s with pc := .idle }
  | gone (a p l) (hpc : s.pc = .admit a p) (hl : s.listener = some l)
      (hrx : (s.backlogs l).rx = false) :
      Move s .task (.lost a p .listenerClosed) { s with listener := none, pc := .idle }
  | fill (a p c) (hpc : s.pc = .queued a p c) (hrx : (s.chans c).rx = true) :
      Move s .task (.routed a p c)
        { s with chans := upd s.chans c ((s.chans c).push p), pc := .filled a c }
  | spill (a p c) (hpc : s.pc = .queued a p c) (hrx : (s.chans c).rx = false) :
      Move s .task (.lost a p .receiverDropped) { s with pc := .filled a c }
  | store (a c) (hpc : s.pc = .filled a c) :
      Move s .task .none { s with receivers := (s.receivers.insert a c).2, pc := .idle }
  | connect (a) (ho : s.owner = true) :
      Move s (.connect a) (.connection s.chanCount a)
        { s with
          chans := upd s.chans s.chanCount ⟨a, 8, [], 0, true, true⟩
          chanCount := s.chanCount + 1
          receivers := (s.receivers.insert a s.chanCount).2 }
  | listenZero (ho : s.owner = true) : Move s (.listen 0) .panic s
  | listen (n) (ho : s.owner = true) (hn : n ≠ 0) (hpc : s.pc.locked = false) :
      Move s (.listen n) (.listening s.backlogCount)
        { s with
          backlogs := upd s.backlogs s.backlogCount ⟨n, [], true⟩
          backlogCount := s.backlogCount + 1
          listener := some s.backlogCount }
  | accept (l c a q) (hl : l < s.backlogCount) (hrx : (s.backlogs l).rx = true)
      (hq : (s.backlogs l).queue = (c, a) :: q) :
      Move s (.accept l) (.connection c a)
        { s with
          backlogs := upd s.backlogs l { s.backlogs l with queue := q }
          chans := upd s.chans c { s.chans c with held := true } }
  | acceptNone (l) (hl : l < s.backlogCount) (hrx : (s.backlogs l).rx = true)
      (hq : (s.backlogs l).queue = []) (hne : s.listener = some l → s.shared = false) :
      Move s (.accept l) .acceptNone s
  | dropListener (l) (hl : l < s.backlogCount) (hrx : (s.backlogs l).rx = true) :
      Move s (.dropListener l) .none
        { s with
          backlogs := upd s.backlogs l { s.backlogs l with queue := [], rx := false }
          chans := fun c =>
            if (s.backlogs l).queue.any (fun e => e.1 = c) then
              { s.chans c with queue := [], rx := false }
            else s.chans c }
  | lagged (c) (hc : c < s.chanCount) (hrx : (s.chans c).rx = true) (hh : (s.chans c).held = true)
      (hm : (s.chans c).missed > 0) :
      Move s (.recv c) (.lagged (s.chans c).missed)
        { s with chans := upd s.chans c { s.chans c with missed := 0 } }
  | packet (c p q) (hc : c < s.chanCount) (hrx : (s.chans c).rx = true)
      (hh : (s.chans c).held = true) (hm : (s.chans c).missed = 0)
      (hq : (s.chans c).queue = p :: q) :
      Move s (.recv c) (.packet p)
        { s with chans := upd s.chans c { s.chans c with queue := q } }
  | closed (c) (hc : c < s.chanCount) (hrx : (s.chans c).rx = true)
      (hh : (s.chans c).held = true) (hm : (s.chans c).missed = 0) (hq : (s.chans c).queue = [])
      (hs : s.hasSender c = false) : Move s (.recv c) .closed s
  | dropReceiver (c) (hc : c < s.chanCount) (hrx : (s.chans c).rx = true)
      (hh : (s.chans c).held = true) :
      Move s (.dropReceiver c) .none
        { s with chans := upd s.chans c { s.chans c with queue := [], rx := false } }
  | close (ho : s.owner = true) : Move s .close .none { s with owner := false }

theorem move_of_step {s s' : State} {a : Action} {o : Obs} (h : step s a = some (s', o)) :
    Move s a o s' := by
  cases a with
  | datagram a p =>
    simp only [step] at h
    split at h
    · cases h; exact .datagram a p ‹_›
    · cases h
  | failure =>
    simp only [step] at h
    split at h
    · cases h; exact .failure ‹_›
    · cases h
  | task =>
    simp only [step, task] at h
    split at h
    · cases h
    · cases h
    · rename_i a p hpc
      split at h
      · cases h; exact .hit a p _ hpc ‹_›
      · cases h; exact .miss a p hpc ‹_›
    · rename_i a p c hpc
      split at h
      · cases h; exact .deliver a p c hpc ‹_›
      · cases h; exact .refuse a p c hpc (Bool.eq_false_iff.mpr ‹_›)
    · rename_i a p hpc
      cases h; exact .remove a p hpc
    · rename_i a p hpc
      have h' := Option.some.inj h
      simp only [admit] at h'
      split at h'
      · cases h'; exact .noListener a p hpc ‹_›
      · rename_i l hl
        split at h'
        · split at h'
          · cases h'; exact .enqueue a p l hpc hl ‹_› ‹_›
          · cases h'; exact .full a p l hpc hl ‹_› ‹_›
        · cases h'; exact .gone a p l hpc hl (Bool.eq_false_iff.mpr ‹_›)
    · rename_i a p c hpc
      split at h
      · cases h; exact .fill a p c hpc ‹_›
      · cases h; exact .spill a p c hpc (Bool.eq_false_iff.mpr ‹_›)
    · rename_i a c hpc
      cases h; exact .store a c hpc
  | connect a =>
    simp only [step, connect] at h
    split at h
    · cases h; exact .connect a ‹_›
    · cases h
  | listen n =>
    simp only [step, listen] at h
    split at h
    · cases h
    · rename_i ho
      have ho : s.owner = true := by simpa using ho
      split at h
      · rename_i hn
        subst hn
        cases h; exact .listenZero ho
      · split at h
        · cases h
        · cases h; exact .listen n ho ‹_› (Bool.eq_false_iff.mpr ‹_›)
  | accept l =>
    simp only [step, accept] at h
    split at h
    · rename_i hl
      split at h
      · cases h; exact .accept l _ _ _ hl.1 hl.2 ‹_›
      · split at h
        · cases h
        · rename_i hne
          cases h; exact .acceptNone l hl.1 hl.2 ‹_› (by simpa using hne)
    · cases h
  | dropListener l =>
    simp only [step, dropListener] at h
    split at h
    · rename_i hl
      cases h; exact .dropListener l hl.1 hl.2
    · cases h
  | recv c =>
    simp only [step, recv] at h
    split at h
    · rename_i hc
      split at h
      · cases h; exact .lagged c hc.1 hc.2.1 hc.2.2 ‹_›
      · rename_i hm
        split at h
        · cases h; exact .packet c _ _ hc.1 hc.2.1 hc.2.2 (by omega) ‹_›
        · split at h
          · cases h
          · cases h
            exact .closed c hc.1 hc.2.1 hc.2.2 (by omega) ‹_› (Bool.eq_false_iff.mpr ‹_›)
    · cases h
  | dropReceiver c =>
    simp only [step, dropReceiver] at h
    split at h
    · rename_i hc
      cases h; exact .dropReceiver c hc.1 hc.2.1 hc.2.2
    · cases h
  | close =>
    simp only [step] at h
    split at h
    · cases h; exact .close ‹_›
    · cases h

open Spec.Udp

/-- The channel the task is about to use, with its address. -/
def Pc.chan : Pc → Option (Addr × Nat)
  | .found a _ c => some (a, c)
  | .queued a _ c => some (a, c)
  | .filled a c => some (a, c)
  | _ => none

/-- The packet the task has not dealt with yet. -/
def Pc.inflight : Pc → List (Addr × Bytes)
  | .lookup a p => [(a, p)]
  | .found a p _ => [(a, p)]
  | .stale a p => [(a, p)]
  | .admit a p => [(a, p)]
  | .queued a p _ => [(a, p)]
  | _ => []

/-- What holds of the tables at all times. -/
structure Tables (s : State) : Prop where
  receivers : ∀ e ∈ s.receivers.entries, e.2 < s.chanCount ∧ (s.chans e.2).peer = e.1
  pc : ∀ a c, s.pc.chan = some (a, c) → c < s.chanCount ∧ (s.chans c).peer = a
  queues : ∀ l, ∀ e ∈ (s.backlogs l).queue, e.1 < s.chanCount ∧ (s.chans e.1).peer = e.2 ∧
    (s.chans e.1).rx = true ∧ (s.chans e.1).held = false
  caps : ∀ c, c < s.chanCount → 0 < (s.chans c).cap ∧ (s.chans c).queue.length ≤ (s.chans c).cap
  high : ∀ c, s.chanCount ≤ c → (s.chans c).rx = false ∧ (s.chans c).queue = [] ∧
    (s.chans c).missed = 0 ∧ (s.chans c).held = false
  listener : ∀ l, s.listener = some l → l < s.backlogCount
  backlogs : ∀ l, s.backlogCount ≤ l → (s.backlogs l).rx = false ∧ (s.backlogs l).queue = []
  bound : ∀ l, (s.backlogs l).queue.length ≤ (s.backlogs l).cap
  nodup : ∀ l, ((s.backlogs l).queue.map Prod.fst).Nodup
  once : ∀ l l' c, c ∈ (s.backlogs l).queue.map Prod.fst → c ∈ (s.backlogs l').queue.map Prod.fst →
    l = l'

theorem Chan.push_peer (c : Chan) (p : Bytes) : (c.push p).peer = c.peer := by
  simp only [push]; split <;> rfl

theorem Chan.push_rx (c : Chan) (p : Bytes) : (c.push p).rx = c.rx := by
  simp only [push]; split <;> rfl

theorem Chan.push_held (c : Chan) (p : Bytes) : (c.push p).held = c.held := by
  simp only [push]; split <;> rfl

theorem Chan.push_cap (c : Chan) (p : Bytes) : (c.push p).cap = c.cap := by
  simp only [push]; split <;> rfl

theorem Chan.push_length (c : Chan) (p : Bytes) (h : 0 < c.cap) (hl : c.queue.length ≤ c.cap) :
    (c.push p).queue.length ≤ c.cap := by
  simp only [push]
  split
  · simp; omega
  · simp; omega

theorem tables_init : Tables init := by
  constructor
  case receivers => intro e he; cases he
  case pc => intro a c h; cases h
  case queues => intro l e he; cases he
  case caps => intro c hc; cases hc
  case high => intro c _; exact ⟨rfl, rfl, rfl, rfl⟩
  case listener => intro l h; cases h
  case backlogs => intro l _; exact ⟨rfl, rfl⟩
  case bound => intro l; exact Nat.le_refl _
  case nodup => intro l; exact List.nodup_nil
  case once => intro l l' c h; cases h

section
variable {s s' : State} {a : Action} {o : Obs}

theorem tables_receivers (h : Tables s) (m : Move s a o s') :
    ∀ e ∈ s'.receivers.entries, e.2 < s'.chanCount ∧ (s'.chans e.2).peer = e.1 := by
  obtain ⟨h1, h2, h3, h4, h5, h6, h7, h8, h9, h10⟩ := h
  cases m <;> grind [upd, Pc.chan, Map.mem_insert, Map.mem_remove, Chan.push_peer]

theorem tables_pc (h : Tables s) (m : Move s a o s') :
    ∀ a c, s'.pc.chan = some (a, c) → c < s'.chanCount ∧ (s'.chans c).peer = a := by
  obtain ⟨h1, h2, h3, h4, h5, h6, h7, h8, h9, h10⟩ := h
  cases m <;> grind [upd, Pc.chan, → Map.mem_of_get, Chan.push_peer]

theorem tables_queues (h : Tables s) (m : Move s a o s') :
    ∀ l, ∀ e ∈ (s'.backlogs l).queue, e.1 < s'.chanCount ∧ (s'.chans e.1).peer = e.2 ∧
      (s'.chans e.1).rx = true ∧ (s'.chans e.1).held = false := by
  obtain ⟨h1, h2, h3, h4, h5, h6, h7, h8, h9, h10⟩ := h
  cases m
  case accept l c a q hl hrx hq =>
    intro l' e he
    have hne : e.1 ≠ c := by
      rintro rfl
      by_cases hl' : l' = l
      · subst hl'
        have := h9 l'
        rw [hq] at this
        simp only [upd_same] at he
        exact (List.nodup_cons.mp this).1 (List.mem_map.mpr ⟨e, he, rfl⟩)
      · simp only [upd_ne _ _ hl'] at he
        exact hl' (h10 l' l e.1 (List.mem_map_of_mem he) (by rw [hq]; simp))
    simp only [upd_ne _ _ hne]
    apply h3 l' e
    by_cases hl' : l' = l
    · subst hl'
      simp only [upd_same] at he
      rw [hq]
      exact List.mem_cons_of_mem _ he
    · simpa only [upd_ne _ _ hl'] using he
  case dropListener l hl hrx =>
    intro l' e he
    by_cases hl' : l' = l
    · subst hl'
      simp only [upd_same] at he
      cases he
    · simp only [upd_ne _ _ hl'] at he
      dsimp only
      rw [if_neg]
      · exact h3 l' e he
      · intro hany
        obtain ⟨e', he', hee⟩ := List.any_eq_true.mp hany
        have hee : e'.1 = e.1 := of_decide_eq_true hee
        exact hl' (h10 l' l e.1 (List.mem_map_of_mem he) (hee ▸ List.mem_map_of_mem he'))
  all_goals grind [upd, Chan.push_peer, Chan.push_rx, Chan.push_held]

theorem tables_caps (h : Tables s) (m : Move s a o s') :
    ∀ c, c < s'.chanCount → 0 < (s'.chans c).cap ∧ (s'.chans c).queue.length ≤ (s'.chans c).cap := by
  obtain ⟨h1, h2, h3, h4, h5, h6, h7, h8, h9, h10⟩ := h
  cases m <;> grind [upd, Chan.push_cap, Chan.push_length]

theorem tables_high (h : Tables s) (m : Move s a o s') :
    ∀ c, s'.chanCount ≤ c → (s'.chans c).rx = false ∧ (s'.chans c).queue = [] ∧
      (s'.chans c).missed = 0 ∧ (s'.chans c).held = false := by
  obtain ⟨h1, h2, h3, h4, h5, h6, h7, h8, h9, h10⟩ := h
  cases m
  case accept l c a q hl hrx hq =>
    have hc := (h3 l (c, a) (by rw [hq]; simp)).1
    intro c' hc'
    simp only [upd_ne _ _ (show c' ≠ c from fun h => by subst h; exact absurd hc (by simpa using hc'))]
    exact h5 c' hc'
  all_goals grind [upd, Pc.chan]

theorem tables_listener (h : Tables s) (m : Move s a o s') :
    ∀ l, s'.listener = some l → l < s'.backlogCount := by
  obtain ⟨h1, h2, h3, h4, h5, h6, h7, h8, h9, h10⟩ := h
  cases m <;> grind

theorem tables_backlogs (h : Tables s) (m : Move s a o s') :
    ∀ l, s'.backlogCount ≤ l → (s'.backlogs l).rx = false ∧ (s'.backlogs l).queue = [] := by
  obtain ⟨h1, h2, h3, h4, h5, h6, h7, h8, h9, h10⟩ := h
  cases m <;> grind [upd]

theorem tables_bound (h : Tables s) (m : Move s a o s') :
    ∀ l, (s'.backlogs l).queue.length ≤ (s'.backlogs l).cap := by
  obtain ⟨h1, h2, h3, h4, h5, h6, h7, h8, h9, h10⟩ := h
  cases m <;> grind [upd]

theorem tables_nodup (h : Tables s) (m : Move s a o s') :
    ∀ l, ((s'.backlogs l).queue.map Prod.fst).Nodup := by
  obtain ⟨h1, h2, h3, h4, h5, h6, h7, h8, h9, h10⟩ := h
  cases m <;> grind [upd]

theorem tables_once (h : Tables s) (m : Move s a o s') :
    ∀ l l' c, c ∈ (s'.backlogs l).queue.map Prod.fst → c ∈ (s'.backlogs l').queue.map Prod.fst →
      l = l' := by
  obtain ⟨h1, h2, h3, h4, h5, h6, h7, h8, h9, h10⟩ := h
  cases m <;> grind [upd]

theorem tables_step (h : Tables s) (m : Move s a o s') : Tables s' :=
  ⟨tables_receivers h m, tables_pc h m, tables_queues h m, tables_caps h m, tables_high h m,
    tables_listener h m, tables_backlogs h m, tables_bound h m, tables_nodup h m, tables_once h m⟩

end

section
variable {s s' : State} {a : Action} {o : Obs}

theorem peer_stable (m : Move s a o s') (c : Nat) (hc : c < s.chanCount) :
    c < s'.chanCount ∧ (s'.chans c).peer = (s.chans c).peer := by
  cases m <;> grind [upd, Chan.push_peer]

end

end Udp

end Rsomeip.Rt
