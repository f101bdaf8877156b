import Verif.Lemmas.EpWork
import Verif.Lemmas.Udp

/-! # How much there is left to do for a UDP socket -/

namespace Rsomeip.Rt.Udp

open Ep (total total_congr total_upd total_new total_le)

/-- Steps for a packet that waits to be read. -/
def weight (p : Bytes) : Nat := 2 + 2 * p.length

/-- Steps for what waits in a channel. -/
def Chan.work (c : Chan) : Nat :=
  if c.rx then (c.queue.map weight).sum + (if 0 < c.missed then 1 else 0) else 0

/-- Steps for what waits in a listener's queue. -/
def Backlog.work (b : Backlog) : Nat := 3 * b.queue.length

/-- Steps for the packet the receiving task deals with. -/
def Pc.work : Pc → Nat
  | .idle => 0
  | .stopped => 0
  | .lookup _ p => weight p + 10
  | .found _ p _ => weight p + 9
  | .stale _ p => weight p + 8
  | .admit _ p => weight p + 7
  | .queued _ p _ => weight p + 3
  | .filled .. => 1

/-- All steps that can be done without calls and without input from the network. -/
def State.work (s : State) : Nat :=
  s.pc.work + total (fun c => (s.chans c).work) s.chanCount +
    total (fun l => (s.backlogs l).work) s.backlogCount

theorem total_upd_le {α : Type} (w : α → Nat) (f : Nat → α) (k : Nat) (v : α) (n : Nat) :
    total (fun i => w (upd f k v i)) n ≤ total (fun i => w (f i)) n + (w v - w (f k)) := by
  by_cases hk : k < n
  · have := total_upd w f k v hk
    omega
  · rw [total_congr (g := fun i => w (f i)) fun i hi => by rw [upd_ne _ _ (by omega)]]
    exact Nat.le_add_right _ _

theorem push_work (c : Chan) (p : Bytes) : (c.push p).work - c.work ≤ weight p + 1 := by
  have h : ((c.queue.drop 1).map weight).sum ≤ (c.queue.map weight).sum := by
    cases c.queue <;> simp
  simp only [Chan.push, Chan.work]
  split <;> split <;> simp_all <;> split <;> omega

theorem work_task {s s' : State} {o : Obs} (h : task s = some (s', o)) : s'.work < s.work := by
  simp only [task] at h
  split at h
  · cases h
  · cases h
  · rename_i hpc
    split at h <;> (cases h; simp only [State.work, hpc, Pc.work]; omega)
  · rename_i a p c hpc
    split at h
    · cases h
      have h1 := total_upd_le Chan.work s.chans c ((s.chans c).push p) s.chanCount
      have h2 := push_work (s.chans c) p
      simp only [State.work, hpc, Pc.work]
      omega
    · cases h; simp only [State.work, hpc, Pc.work]; omega
  · rename_i hpc
    cases h; simp only [State.work, hpc, Pc.work]; omega
  · rename_i a p hpc
    simp only [admit] at h
    split at h
    · cases h; simp only [State.work, hpc, Pc.work]; omega
    · rename_i l hl
      split at h
      · split at h
        · cases h
          have h1 := total_new Chan.work s.chans ⟨a, 32, [], 0, true, false⟩ s.chanCount
          have h2 := total_upd_le Backlog.work s.backlogs l
            { s.backlogs l with queue := (s.backlogs l).queue ++ [(s.chanCount, a)] } s.backlogCount
          simp only [State.work, hpc, Pc.work, h1]
          simp only [Chan.work, Backlog.work, List.length_append, List.length_singleton] at h2 ⊢
          simp
          omega
        · cases h; simp only [State.work, hpc, Pc.work]; omega
      · cases h; simp only [State.work, hpc, Pc.work]; omega
  · rename_i a p c hpc
    split at h
    · cases h
      have h1 := total_upd_le Chan.work s.chans c ((s.chans c).push p) s.chanCount
      have h2 := push_work (s.chans c) p
      simp only [State.work, hpc, Pc.work]
      omega
    · cases h; simp only [State.work, hpc, Pc.work]; omega
  · rename_i hpc
    cases h; simp only [State.work, hpc, Pc.work]; omega

theorem work_connect {s s' : State} {a : Addr} {o : Obs} (h : connect s a = some (s', o)) :
    s'.work = s.work := by
  simp only [connect] at h
  split at h
  · cases h
    have h1 := total_new Chan.work s.chans ⟨a, 8, [], 0, true, true⟩ s.chanCount
    simp only [State.work, h1]
    simp [Chan.work]
  · cases h

theorem work_listen {s s' : State} {n : Nat} {o : Obs} (h : listen s n = some (s', o)) :
    s'.work = s.work := by
  simp only [listen] at h
  split at h
  · cases h
  · split at h
    · cases h; rfl
    · split at h
      · cases h
      · cases h
        have h1 := total_new Backlog.work s.backlogs ⟨n, [], true⟩ s.backlogCount
        simp only [State.work, h1]
        simp [Backlog.work]

theorem work_close {s s' : State} {o : Obs} (h : step s .close = some (s', o)) :
    s'.work = s.work := by
  simp only [step] at h
  split at h
  · cases h; rfl
  · cases h

theorem work_dropReceiver {s s' : State} {c : Nat} {o : Obs} (h : dropReceiver s c = some (s', o)) :
    s'.work ≤ s.work := by
  simp only [dropReceiver] at h
  split at h
  · cases h
    have h1 := total_upd_le Chan.work s.chans c { s.chans c with queue := [], rx := false } s.chanCount
    simp only [State.work]
    simp only [Chan.work] at h1 ⊢
    simp at h1
    omega
  · cases h

theorem work_dropListener {s s' : State} {l : Nat} {o : Obs} (h : dropListener s l = some (s', o)) :
    s'.work ≤ s.work := by
  simp only [dropListener] at h
  split at h
  · cases h
    have h1 := total_upd_le Backlog.work s.backlogs l { s.backlogs l with queue := [], rx := false }
      s.backlogCount
    have h2 : total (fun c => Chan.work (if (s.backlogs l).queue.any (fun e => e.1 = c) then
        { s.chans c with queue := [], rx := false } else s.chans c)) s.chanCount ≤
        total (fun c => (s.chans c).work) s.chanCount := by
      apply total_le
      intro c
      split
      · exact Nat.zero_le _
      · exact Nat.le_refl _
    simp only [State.work]
    simp only [Backlog.work, List.length_nil] at h1 ⊢
    dsimp only at h2
    omega
  · cases h

/-- Accepting a connection. -/
theorem work_accept {s s' : State} {l d : Nat} {a : Addr}
    (h : accept s l = some (s', .connection d a)) : s'.work + 3 ≤ s.work := by
  simp only [accept] at h
  split at h
  · rename_i hl
    split at h
    · rename_i c b q hq
      cases h
      have h1 := total_upd Backlog.work s.backlogs l { s.backlogs l with queue := q } hl.1
      have h2 := total_upd_le Chan.work s.chans d { s.chans d with held := true } s.chanCount
      simp only [State.work]
      simp only [Backlog.work, hq, List.length_cons] at h1 ⊢
      simp only [Chan.work, Nat.sub_self] at h2 ⊢
      omega
    · split at h
      · cases h
      · cases h
  · cases h

theorem work_acceptNone {s s' : State} {l : Nat} (h : accept s l = some (s', .acceptNone)) :
    s'.work = s.work := by
  simp only [accept] at h
  split at h
  · split at h
    · cases h
    · split at h
      · cases h
      · cases h; rfl
  · cases h

/-- Reading from a channel: a packet is dealt with, or losses are reported, or the end. -/
theorem work_recv {s s' : State} {c : Nat} {o : Obs} (h : recv s c = some (s', o)) :
    (∃ p, o = .packet p ∧ s'.work + weight p ≤ s.work) ∨ (∃ n, o = .lagged n ∧ s'.work < s.work) ∨
      (o = .closed ∧ s' = s) := by
  simp only [recv] at h
  split at h
  · rename_i hc
    split at h
    · rename_i hm
      cases h
      have h1 := total_upd Chan.work s.chans c { s.chans c with missed := 0 } hc.1
      refine .inr (.inl ⟨_, rfl, ?_⟩)
      simp only [State.work]
      simp [Chan.work, hc.2.1, hm] at h1 ⊢
      omega
    · rename_i hm
      split at h
      · rename_i p q hq
        cases h
        have h1 := total_upd Chan.work s.chans c { s.chans c with queue := q } hc.1
        refine .inl ⟨_, rfl, ?_⟩
        simp only [State.work]
        simp [Chan.work, hc.2.1, hq] at h1 ⊢
        omega
      · split at h
        · cases h
        · cases h; exact .inr (.inr ⟨rfl, rfl⟩)
  · cases h

end Rsomeip.Rt.Udp
