import Verif.Lemmas.UdpWork
import Verif.Lemmas.TcpNode
import Verif.Lemmas.NodeOnce

/-! # How much there is left to do for an endpoint on a socket -/

namespace Rsomeip.Rt

open Spec

namespace Ep

theorem frames_short {b : Bytes} {ms : List Msg} (h : Frames b ms) : ms.length ≤ b.length := by
  induction h with
  | nil => exact Nat.le_refl _
  | cut m n _ _ _ => rw [frameWith_length]; simp; omega
  | cons m _ _ _ ih => rw [List.length_append, frame_length, List.length_cons]; omega

variable {dg : Bool} {s s' : State} {o : Obs}

theorem work_end (hf : Fresh s) {c : Nat} (ha : (s.conns c).alive = true) :
    State.work { s with conns := upd s.conns c (s.conns c).ended } < s.work := by
  refine work_conn rfl rfl rfl rfl rfl rfl rfl rfl (alive_lt hf ha) ?_
  simp [Conn.work, Conn.ended, ha]

/-- What has to be done about a packet. -/
theorem work_packet (hf : Fresh s) {c : Nat} {b : Bytes}
    (h : step dg s (.packet c (.packet b)) = some (s', o)) :
    s'.work ≤ s.work + 1 + 2 * b.length := by
  generalize hx : Action.packet c (.packet b) = x at h
  cases move_of_step h with
  | packetRoute c r ms ha hw hr =>
    cases hx
    have hl := frames_short ((receive_route _ _).mp hr)
    have h1 := total_upd Conn.work s.conns c { s.conns c with pc := .route ms } (alive_lt hf ha)
    simp only [State.work]
    simp [Conn.work, ha, hw] at h1 ⊢
    omega
  | packetSkip => omega
  | packetEnd c r ha => have := work_end hf ha; omega
  | _ => cases hx

theorem work_lagged {c n : Nat} (h : step dg s (.packet c (.lagged n)) = some (s', o)) : s' = s := by
  generalize hx : Action.packet c (.lagged n) = x at h
  cases move_of_step h with
  | packetRoute c r ms ha hw hr => cases hx; cases hr
  | packetSkip => rfl
  | packetEnd c r ha _ hr => cases hx; rcases hr with hr | hr <;> cases hr
  | _ => cases hx

theorem work_closed (hf : Fresh s) {c : Nat} (h : step dg s (.packet c .closed) = some (s', o)) :
    s'.work < s.work := by
  generalize hx : Action.packet c .closed = x at h
  cases move_of_step h with
  | packetRoute c r ms ha hw hr => cases hx; cases hr
  | packetSkip c r ha _ hr => cases hx; rcases hr with ⟨_, hr⟩ | hr <;> cases hr
  | packetEnd c r ha => exact work_end hf ha
  | _ => cases hx

theorem work_accept (hf : Fresh s) {l : Nat} {a : Addr}
    (h : step dg s (.accept l a) = some (s', o)) : s'.work = s.work + 2 := by
  generalize hx : Action.accept l a = x at h
  cases move_of_step h with
  | accept l a ha hw =>
    have h1 := total_new Conn.work s.conns (newConn a) s.connCount
    have h2 := total_upd Lis.work s.liss l { s.liss l with pc := .share s.connCount } (lis_lt hf ha)
    simp only [State.work]
    rw [h1]
    simp [Conn.work, newConn, Lis.work, ha, hw] at h2 ⊢
    omega
  | _ => cases hx

theorem work_acceptNone (hf : Fresh s) {l : Nat} (h : step dg s (.acceptNone l) = some (s', o)) :
    s'.work < s.work := by
  generalize hx : Action.acceptNone l = x at h
  cases move_of_step h with
  | acceptNone l ha hw =>
    refine work_lis rfl rfl rfl rfl rfl rfl rfl rfl (lis_lt hf ha) ?_
    simp [Lis.work, deadLis, ha]
  | _ => cases hx

end Ep

namespace Node

/-- An action of the endpoint's tasks, of a call in progress, or of the socket's task. -/
def Action.internal : Action → Bool
  | .task => true
  | .app (.packet ..) => true
  | .app (.accept ..) => true
  | .app (.acceptNone _) => true
  | .app x => x.internal
  | _ => false

/-- All steps that can be done without calls and without input from the network. -/
def State.work (s : State) : Nat := s.ep.work + s.udp.work

theorem work_step {s s' : State} {a : Action} {o : Obs} (hg : Ep.Good s.ep)
    (h : step s a = some (s', o)) (hi : a.internal = true) : s'.work < s.work := by
  cases move_of_step h with
  | net _ u v w ha hn hd hu =>
    have : a = .task := by
      cases a with
      | app x => exact absurd rfl (ha x)
      | task => rfl
      | _ => cases hi
    subst this
    have : u = .task := by
      rcases hn with hn | rfl | ⟨b, p, rfl⟩
      · exact hn
      · simp only [step] at h
        split at h <;> cases h
      · have := (hd b p).mpr rfl
        cases this
    subst this
    have := Udp.work_task hu
    simp only [State.work]
    omega
  | app x e o s' us out he hc =>
    have hm := Ep.move_of_step he
    have hw : x.internal = true → e.work < s.ep.work := hm.work hg.fresh hg.ended
    cases hc with
    | connect c a v d b hx ho hu =>
      subst hx
      have h1 := hw rfl
      have h2 := Udp.work_connect hu
      simp only [State.work]; omega
    | close v w hx ho hu =>
      subst hx
      have h1 := hw rfl
      have h2 := Udp.work_close hu
      simp only [State.work]; omega
    | listen v d hx _ _ _ hu =>
      subst hx
      have h1 := hw rfl
      have h2 := Udp.work_listen hu
      simp only [State.work]; omega
    | accept l a v d hx hu =>
      subst hx
      have h1 := Ep.work_accept hg.fresh he
      have h2 := Udp.work_accept hu
      simp only [State.work]; omega
    | acceptNone l v v' w hx hu hu' =>
      subst hx
      have h1 := Ep.work_acceptNone hg.fresh he
      have h2 := Udp.work_acceptNone hu
      have h3 := Udp.work_dropListener hu'
      simp only [State.work]; omega
    | stop l v w hx ha hu =>
      subst hx
      have h1 := hw rfl
      have h2 := Udp.work_dropListener hu
      simp only [State.work]; omega
    | recv c r v w hx hr ha hu =>
      subst hx
      rcases Udp.work_recv hu with ⟨p, rfl, h2⟩ | ⟨n, rfl, h2⟩ | ⟨rfl, rfl⟩ <;> cases hr
      · have h1 := Ep.work_packet hg.fresh he
        simp only [State.work, Udp.weight] at h2 ⊢; omega
      · have h1 := Ep.work_lagged he
        subst h1
        simp only [State.work]; omega
      · have h1 := Ep.work_closed hg.fresh he
        simp only [State.work]; omega
    | recvEnd c r v v' w w' hx hr ha hu hu' =>
      subst hx
      have h3 := Udp.work_dropReceiver hu'
      rcases Udp.work_recv hu with ⟨p, rfl, h2⟩ | ⟨n, rfl, h2⟩ | ⟨rfl, rfl⟩ <;> cases hr
      · have h1 := Ep.work_packet hg.fresh he
        simp only [State.work, Udp.weight] at h2 ⊢; omega
      · have h1 := Ep.work_lagged he
        subst h1
        simp only [State.work]; omega
      · have h1 := Ep.work_closed hg.fresh he
        simp only [State.work]; omega
    | drop c v w hx ha hu =>
      subst hx
      have h1 := hw rfl
      have h2 := Udp.work_dropReceiver hu
      simp only [State.work]; omega
    | send c ok b hx =>
      subst hx
      have h1 := hw rfl
      simp only [State.work]; omega
    | sendEnd c ok b v w hx _ _ _ hu =>
      subst hx
      have h1 := hw rfl
      have h2 := Udp.work_dropReceiver hu
      simp only [State.work]; omega
    | still h1 h2 h3 h4 h5 h6 h7 =>
      have h1 : e.work < s.ep.work := by
        cases x <;> first
          | exact hw hi
          | exact absurd rfl (h5 _ _)
          | exact absurd rfl (h2 _ _)
          | exact absurd rfl (h3 _)
      simp only [State.work]; omega

theorem work_bound {tr t : Spec.Node.Trace} {s s' : State} (e : Exec step init tr s)
    (e' : Exec step s t s') (h : ∀ x ∈ t, x.1.internal = true) : t.length + s'.work ≤ s.work := by
  induction e' with
  | nil => simp
  | @snoc t s₁ s₂ a o e₁ hs ih =>
    have h1 := ih fun x hx => h x (List.mem_append_left _ hx)
    have hg := (Ep.good_hist (parts (e.append e₁)).1).1
    have h2 := work_step hg hs (h (a, o) (List.mem_append_right _ (List.mem_singleton_self _)))
    rw [List.length_append, List.length_singleton]
    omega

end Node

namespace TcpNode

open Ep (total total_congr total_upd total_le)

/-- An action of the endpoint's tasks or of a call in progress; `TcpReceiver::recv` and
`TcpSender::send` get on. -/
def Action.internal : Action → Bool
  | .app x => x.internal
  | .read _ a => a ≠ .wouldBlock
  | .write _ a => a ≠ .wouldBlock ∧ a ≠ .wrote 0
  | _ => false

/-- The steps of the endpoint that can be done without calls and without input from the network. -/
def State.work (s : State) : Nat :=
  s.ep.work + total (fun c => 4 * (s.inb c).length) s.ep.connCount

/-- How much has to be written of what is being sent. -/
def State.left (s : State) : Nat :=
  total (fun c => (s.ep.conns c).out.toList.flatten.length - s.sent c) s.ep.connCount

theorem total_const {f : Nat → Nat} {n m : Nat} (h : n ≤ m) (hf : ∀ i, n ≤ i → f i = 0) :
    total f m = total f n := by
  induction m with
  | zero => rw [Nat.le_zero.mp h]
  | succ m ih =>
    by_cases hm : n = m + 1
    · rw [hm]
    · rw [total, ih (by omega), hf m (by omega), Nat.add_zero]

theorem in_new {tr : Spec.TcpNode.Trace} {s : State} (e : Exec step init tr s) {c : Nat}
    (hc : s.ep.connCount ≤ c) : s.inb c = [] := by
  induction e generalizing c with
  | nil => rfl
  | @snoc tr1 s1 s2 act ob e hs ih =>
    have key : s1.ep.connCount ≤ c → s2.inb c = [] := by
      intro h
      have h1 := ih h
      cases move_of_step hs with
      | arrive d b hd => dsimp only; rwa [upd_ne _ _ (show c ≠ d by omega)]
      | broken d =>
        by_cases hd : c = d
        · subst hd; simpa [upd] using h1
        · simpa [upd, hd] using h1
      | read d =>
        by_cases hd : c = d
        · subst hd; simp [upd, h1]
        · simpa [upd, hd] using h1
      | _ => exact h1
    refine key (Nat.le_trans ?_ hc)
    cases move_of_step hs <;> first
      | exact Nat.le_refl _
      | exact (Ep.move_of_step ‹_›).connCount

theorem pending_some {b w : Bytes} {n : Nat} {a : Tcp.WriteAnswer}
    (ha : a ≠ .wouldBlock ∧ a ≠ .wrote 0) (h : Tcp.send b n [] [a] = (.pending, w)) :
    0 < w.length := by
  cases a with
  | wouldBlock => exact absurd rfl ha.1
  | broken => cases h
  | failed => simp only [Tcp.send] at h; split at h <;> cases h
  | wrote k =>
    simp only [Tcp.send, List.nil_append] at h
    split at h
    · cases h
    · split at h
      · cases h
        rename_i h1 h2
        have : k ≠ 0 := fun hk => ha.2 (by rw [hk])
        simp at h2 ⊢
        omega
      · cases h

/-- A step of a task, if no remote has closed its side of a connection. -/
theorem work_step {tr : Spec.TcpNode.Trace} {s s' : State} {a : Action} {o : Obs}
    (e : Exec step init tr s) (he : ∀ c, s.eof c = false) (h : step s a = some (s', o))
    (hi : a.internal = true) :
    s'.work < s.work ∨ s'.work = s.work ∧ s'.left < s.left := by
  have hg := (Ep.good_hist (part e)).1
  have grow : ∀ e' : Ep.State, s.ep.connCount ≤ e'.connCount →
      total (fun c => 4 * (s.inb c).length) e'.connCount =
      total (fun c => 4 * (s.inb c).length) s.ep.connCount := fun e' h =>
    total_const h fun c hc => by rw [in_new e hc]; rfl
  cases move_of_step h with
  | app x e' o h1 h2 he' =>
    have m := Ep.move_of_step he'
    have hw := m.work hg.fresh hg.ended hi
    refine .inl ?_
    simp only [State.work, grow _ m.connCount]
    omega
  | arrive | shut | wait => cases hi
  | broken c a e' o _ he' =>
    have m := Ep.move_of_step he'
    have hw := Ep.work_closed hg.fresh he'
    refine .inl ?_
    have : upd s.inb c (s.inb c) = s.inb := by funext d; simp only [upd]; split <;> simp_all
    simp only [State.work, this, grow _ m.connCount]
    omega
  | read c n e' o hp he' =>
    have m := Ep.move_of_step he'
    have hw := Ep.work_packet hg.fresh he'
    rw [he c] at hp
    have hne : s.inb c ≠ [] ∧ 0 < n := by
      by_cases hn : s.inb c = []
      · simp [hn] at hp
      · simp [hn] at hp; exact ⟨hn, hp⟩
    have hc : c < s.ep.connCount := by
      apply Decidable.byContradiction
      intro hc
      exact hne.1 (in_new e (by omega))
    have h1 := total_upd (fun b : Bytes => 4 * b.length) s.inb c ((s.inb c).drop (min n 1400)) hc
    have h2 : e'.connCount = s.ep.connCount := by
      generalize hx : Ep.Action.packet c (.packet ((s.inb c).take (min n 1400))) = x at m
      cases m <;> first | rfl | cases hx
    have h3 := List.length_pos_iff.mpr hne.1
    refine .inl ?_
    simp only [State.work, h2]
    simp only [List.length_take, List.length_drop] at hw h1 ⊢
    omega
  | taken c a b w hb hw =>
    refine .inr ⟨rfl, ?_⟩
    have hpos := pending_some (by simpa [Action.internal] using hi) hw
    have ha := out_alive hg hb
    have hr := (streams e).prog c (.inl ha.1)
    rw [hb] at hr
    have hr' := round a hr
    rw [hw] at hr'
    have hlen : s.sent c + w.length ≤ b.length := by
      rcases hr'.2 with h | ⟨h, rfl⟩
      · omega
      · omega
    simp only [State.left]
    have key : ∀ n, c < n →
        total (fun d => (s.ep.conns d).out.toList.flatten.length -
          upd s.sent c (s.sent c + w.length) d) n + w.length =
        total (fun d => (s.ep.conns d).out.toList.flatten.length - s.sent d) n := by
      intro n
      induction n with
      | zero => intro h; omega
      | succ n ih =>
        intro hn
        rw [total, total]
        by_cases hcn : c = n
        · subst hcn
          rw [upd_same, hb, total_congr (g := fun d =>
            (s.ep.conns d).out.toList.flatten.length - s.sent d) fun i hi => by
              rw [upd_ne _ _ (by omega)]]
          simp
          omega
        · have := ih (by omega)
          rw [upd_ne _ _ (Ne.symm hcn)]
          omega
    have := key _ ha.2
    omega
  | done c a b w e' o hb hw he' =>
    have m := Ep.move_of_step he'
    have hw := m.work hg.fresh hg.ended rfl
    refine .inl ?_
    simp only [State.work, grow _ m.connCount]
    omega
  | failed c a b b' w e' o hb hw he' =>
    have m := Ep.move_of_step he'
    have hw := m.work hg.fresh hg.ended rfl
    refine .inl ?_
    simp only [State.work, grow _ m.connCount]
    omega

theorem eof_none {tr : Spec.TcpNode.Trace} {s : State} (e : Exec step init tr s)
    (h : ∀ c o, (.shut c, o) ∉ tr) (c : Nat) : s.eof c = false := by
  induction e with
  | nil => rfl
  | @snoc tr1 s1 s2 act ob e hs ih =>
    have h1 := ih fun c o hx => h c o (List.mem_append_left _ hx)
    cases move_of_step hs with
    | shut d => exact absurd (List.mem_append_right _ (List.mem_singleton_self _)) (h d _)
    | _ => exact h1

theorem eof_stays {s s' : State} {a : Action} {o : Obs} (h : step s a = some (s', o))
    (hi : a.internal = true) : s'.eof = s.eof := by
  cases move_of_step h <;> first | rfl | cases hi

end TcpNode

end Rsomeip.Rt
