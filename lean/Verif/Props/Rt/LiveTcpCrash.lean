import Verif.Lemmas.TcpCrashRun
import Verif.Props.Rt.LiveTcpHandle
import Verif.Props.Rt.TcpCrash

/-! # C146: programs connected by TCP that have crashed receive everything in the long run -/

namespace Rsomeip

section
open Rt Rt.TcpCrash Spec Spec.TcpCrash Someip
open Spec.TcpNet (ArriveStep)
open Spec.TcpNode (written arrived app Plain Whole Broke)
open Spec.Ep (Shown accepted wireForm heard settled contents ConnOver For stubGot proxyGot)
open Spec.Node (reads)

/-- The connection with the ends `c` at `n` and `d` at `a` is of no more use for what is sent from `a` to
`n`: the operating system has reported an error at `a`, the connection has ended at `n`, or TCP has reported
to `n` that nothing more comes. -/
def Spec.TcpCrash.Useless (n : Addr) (c : Nat) (a : Addr) (d : Nat) (tr : Trace) : Prop :=
  Broke d (life a tr) ∨ ConnOver c (app (life n tr)) ∨ ∃ o, (.shut c, o) ∈ life n tr

variable {own : Addr → Bool} {r : Run own} {a n : Addr} {c d T U V : Nat}

theorem eof_shut {tr : Spec.TcpNode.Trace} {s : TcpNode.State} (e : Exec TcpNode.step TcpNode.init tr s)
    (h : s.eof c = true) : ∃ o, (.shut c, o) ∈ tr := by
  induction e with
  | nil => cases h
  | @snoc tr1 s1 s2 act ob e1 hs ih =>
    cases TcpNode.move_of_step hs with
    | shut d hd =>
      by_cases hc : c = d
      · subst hc
        exact ⟨_, List.mem_append_right _ (List.mem_singleton_self _)⟩
      · simp only [upd_ne _ _ hc] at h
        exact (ih h).imp fun o ho => List.mem_append_left _ ho
    | _ => exact (ih h).imp fun o ho => List.mem_append_left _ ho

/-- Connection `c` of the program at `n` and connection `d` of the one at `a` are the two ends of one. -/
def joined (r : Run own) (a n : Addr) (t c d : Nat) : Prop :=
  (r.state t).peer n ((r.state t).base n + c) = some (a, (r.state t).base a + d)

theorem joined_stays (sa : Stays r a T) (sn : Stays r n T) {t u : Nat} (ht : T ≤ t) (hu : t ≤ u)
    (h : joined r a n t c d) : joined r a n u c d := by
  have h1 := peer_stays r hu h
  rw [base_stays sa ht, base_stays sn ht] at h1
  rw [joined, base_stays sa (Nat.le_trans ht hu), base_stays sn (Nat.le_trans ht hu)]
  exact h1

theorem joined_pipe {t : Nat} (h : joined r a n t c d) : own a = true ∧ own n = true ∧
    Shown (app (life n (r.hist t))) (.opened c a) ∧ Shown (app (life a (r.hist t))) (.opened d n) ∧
    c < ((r.state t).nodes n).ep.connCount ∧
    written d (life a (r.hist t)) =
      arrived c (life n (r.hist t)) ++ (r.state t).pipe a ((r.state t).base a + d) := by
  obtain ⟨ad, W, A, hg⟩ := ghost (r.exec t)
  have h' := hg.links.symm _ _ _ _ h
  have key : ∀ {n a : Addr} {c g : Nat}, (r.state t).peer n ((r.state t).base n + c) = some (a, g) →
      Shown (app (life n (r.hist t))) (.opened c a) ∧ c < ((r.state t).nodes n).ep.connCount := by
    intro n a c g h
    obtain ⟨h1, h2⟩ := hg.links.addr _ _ _ _ h
    have h1 : c < ((r.state t).nodes n).ep.connCount := by rw [State.count] at h1; omega
    have := (Rt.Ep.good_hist (TcpNode.part (living (r.exec t) n))).2.conns _ h1
    rw [← hg.addr n c h1, h2] at this
    exact ⟨this, h1⟩
  refine ⟨hg.links.owned _ _ _ _ h, hg.links.owned _ _ _ _ h', (key h).1, (key h').1, (key h).2, ?_⟩
  have h3 := hg.links.pipe a ((r.state t).base a + d)
  rw [h', hg.wri] at h3
  rw [h3]
  show A n _ ++ _ = _
  rw [hg.arr]

theorem life_grows (b : Begins r n V) {t u : Nat} (ht : V ≤ t) (hu : t ≤ u) :
    ∃ w, life n (r.hist u) = life n (r.hist t) ++ w := by
  obtain ⟨w, h, -⟩ := (nodeRun r b).segment hu
  rw [nodeRun_hist b ht, nodeRun_hist b (by omega)] at h
  exact ⟨w, h⟩

/-- What was written at one end arrives at the other end. -/
theorem crash_tcp_carries (ba : Begins r a U) (bn : Begins r n V) (hU : U ≤ T) (hV : V ≤ T) {t : Nat}
    (hT : T ≤ t) (hf : r.FairTo (At n (ArriveStep c))) (hp : joined r a n t c d) : ∃ u, t ≤ u ∧
      (written d (life a (r.hist t)) <+: arrived c (life n (r.hist u)) ∨
        ∃ o, (.shut c, o) ∈ life n (r.hist u)) := by
  have sa : Stays r a T := fun u hu => ba.stays u (by omega)
  have sn : Stays r n T := fun u hu => bn.stays u (by omega)
  have hn := (joined_pipe hp).2.1
  apply Classical.byContradiction
  intro hc
  have peer : ∀ u, t ≤ u → joined r a n u c d := fun u hu => joined_stays sa sn hT hu hp
  have grow : ∀ u, t ≤ u → written d (life a (r.hist t)) <+: written d (life a (r.hist u)) := by
    intro u hu
    obtain ⟨v, h1⟩ := life_grows ba (show U ≤ t by omega) hu
    rw [h1, written, written, List.flatMap_append]
    exact List.prefix_append ..
  have h1 : ∀ u, t ≤ u → (arrived c (life n (r.hist u))).length < (written d (life a (r.hist t))).length ∧
      ((r.state u).nodes n).eof c = false := by
    intro u hu
    refine ⟨Nat.lt_of_not_le fun h => hc ⟨u, hu, .inl ?_⟩, ?_⟩
    · refine List.prefix_of_prefix_length_le (grow u hu) ?_ h
      rw [(joined_pipe (peer u hu)).2.2.2.2.2]
      exact List.prefix_append ..
    · cases he : ((r.state u).nodes n).eof c with
      | false => rfl
      | true => exact absurd ⟨u, hu, .inr (eof_shut (living (r.exec u) n) he)⟩ hc
  obtain ⟨u, h2, h3⟩ := r.grows hf (N := t) (fun u => (arrived c (life n (r.hist u))).length)
    (fun u hu => by
      obtain ⟨v, h1⟩ := life_grows bn (show V ≤ u by omega) (Nat.le_succ u)
      rw [h1, arrived, arrived, List.flatMap_append, List.length_append]
      omega)
    (fun u hu hd => by
      obtain ⟨x, o, h2, y, k, rfl, b, hb, rfl⟩ := hd
      rw [r.hist_succ, h2, Option.toList_some]
      unfold life
      rw [story_here, arrived, arrived, List.flatMap_append, List.length_append]
      have := List.length_pos_iff.mpr hb
      simp
      omega)
    (fun M => by
      refine ⟨max M t, by omega, ?_⟩
      have h2 := h1 (max M t) (by omega)
      have h4 := peer (max M t) (by omega)
      obtain ⟨-, -, -, -, h5, h3⟩ := joined_pipe h4
      have h6 := (grow (max M t) (by omega)).length_le
      rw [h3] at h6
      rw [joined] at h4
      generalize hs : r.state (max M t) = s at h2 h4 h5 h6
      have h6 : s.pipe a (s.base a + d) ≠ [] := by
        intro h
        rw [h, List.append_nil] at h6
        omega
      have h7 : possible own s n 0 (.arrive c (s.pipe a (s.base a + d))) = true := by
        simp [possible, h4]
      have h8 : TcpNode.step (s.nodes n) (.arrive c (s.pipe a (s.base a + d))) ≠ none := by
        simp [TcpNode.step, h2.2, h5]
      cases h9 : TcpNode.step (s.nodes n) (.arrive c (s.pipe a (s.base a + d))) with
      | none => exact absurd h9 h8
      | some w =>
        refine ⟨.net n (.arrive c (s.pipe a (s.base a + d))) 0, w.2,
          { carry own s n 0 (.arrive c (s.pipe a (s.base a + d))) w.2 with nodes := upd s.nodes n w.1 },
          ⟨_, _, rfl, _, h6, rfl⟩, ?_⟩
        simp only [hs, step, hn, h7, Bool.and_self, if_true, h9])
    (written d (life a (r.hist t))).length
  exact absurd (h1 u h2).1 (Nat.not_lt.mpr h3)

/-- Before two connections are known to be joined nothing has arrived. -/
theorem joined_arrived (sa : Stays r a T) (sn : Stays r n T) {t t' : Nat} (hT : T ≤ t) (ht : t ≤ t')
    (h : joined r a n t' c d) : arrived c (life n (r.hist t)) <+: written d (life a (r.hist t)) := by
  cases hp : (r.state t).peer n ((r.state t).base n + c) with
  | some w =>
    have h1 := peer_stays r ht hp
    rw [base_stays sn hT, ← base_stays sn (Nat.le_trans hT ht), h] at h1
    cases h1
    rw [base_stays sa (Nat.le_trans hT ht), ← base_stays sa hT] at hp
    exact ⟨_, (joined_pipe hp).2.2.2.2.2.symm⟩
  | none =>
    obtain ⟨ad, W, A, hg⟩ := ghost (r.exec t)
    rw [← hg.arr]
    have h2 : A n ((r.state t).base n + c) = [] := by
      by_cases hc : c < ((r.state t).nodes n).ep.connCount
      · refine hg.links.none n _ (by rw [State.count]; omega) hp ?_
        have h3 := (Rt.Ep.good_hist (TcpNode.part (living (r.exec t) n))).2.conns c hc
        obtain ⟨V, hV, bn⟩ := begins sn
        obtain ⟨v, hv⟩ := life_grows bn (show V ≤ t by omega) ht
        have h4 : Shown (app (life n (r.hist t'))) (.opened c (((r.state t).nodes n).ep.conns c).addr) := by
          rw [hv, tcp_app_append]; exact h3.mono _
        have h5 := joined_pipe h
        have h6 := Rt.Ep.opened_addr (TcpNode.part (living (r.exec t') n)) h5.2.2.1
        rw [hg.addr n c hc, ← (Rt.Ep.opened_addr (TcpNode.part (living (r.exec t') n)) h4).2, h6.2]
        exact h5.1
      · exact hg.links.fresh n _ (by rw [State.count]; omega)
    rw [h2]
    exact List.nil_prefix

theorem joined_symm {t : Nat} (h : joined r a n t c d) : joined r n a t d c := by
  obtain ⟨ad, W, A, hg⟩ := ghost (r.exec t)
  exact hg.links.symm _ _ _ _ h

theorem accept_joined {t l : Nat} (ha : own a = true)
    (h : (.accept l a, .opened c a) ∈ app (life n (r.hist t))) :
    (∃ d, joined r a n t c d) ∨ Stale a n c (r.hist t) := by
  obtain ⟨g, hp⟩ := Rt.TcpCrash.accept_paired (r.exec t) ha h
  obtain ⟨ad, W, A, hg⟩ := ghost (r.exec t)
  by_cases hb : (r.state t).base a ≤ g
  · left
    refine ⟨g - (r.state t).base a, ?_⟩
    rw [joined, hp, Nat.add_sub_cancel' hb]
  · right
    obtain ⟨L, h1, d, h2, h3, -⟩ := hg.past a g (by omega)
    have h4 := hg.links.symm _ _ _ _ hp
    rw [(hg.links.addr _ _ _ _ h4).2] at h2
    refine ⟨L, h1, d, h2, ?_⟩
    rw [← hg.arr, ← h3, hg.links.pipe a g, h4]
    exact List.prefix_append _ _

theorem joined_coupled (sa : Stays r a T) (sn : Stays r n T) (ha : own a = true) (hn : own n = true) :
    Coupled r a n T (joined r a n) := by
  refine ⟨fun t c d _ h => ?_, fun t u c d ht hu => joined_stays sa sn ht hu, ?_, ?_, ?_⟩
  · have := joined_pipe h
    exact ⟨this.2.2.1, this.2.2.2.1⟩
  · intro t c d c' d' _ h h'
    constructor
    · rintro rfl
      rw [joined, h] at h'
      simpa using h'
    · rintro rfl
      have h1 := joined_symm h
      rw [joined, joined_symm h'] at h1
      simpa using h1.symm
  · exact fun t l c _ h => accept_joined ha h
  · exact fun t l d _ h => (accept_joined hn h).imp_left fun ⟨c, h⟩ => ⟨c, joined_symm h⟩

/-- From one end to the other. -/
theorem crash_tcp_bytes (sa : Stays r a T) (sn : Stays r n T) (fa : Fair r a) (hf : Fair r n) (hr : Read r n)
    (hb : Settles r n) (hw : Carries r n T) {t : Nat} (hT : T ≤ t) (hp : joined r a n t c d) :
    ∃ u, t ≤ u ∧ (Useless n c a d (r.hist u) ∨
      ∃ p, ((accepted d (app (life a (r.hist t)))).map wireForm).flatten <+: p.flatten ∧
        p <+: reads c (app (life n (r.hist u))) ∧
        p.flatMap contents <+: settled c (app (life n (r.hist u)))) := by
  obtain ⟨U, hU, ba⟩ := begins sa
  obtain ⟨V, hV, bn⟩ := begins sn
  obtain ⟨ha, hn, -⟩ := joined_pipe hp
  -- it is written
  obtain ⟨u, h1, h2⟩ := C127_sent (nodeRun r ba) d ((fair_node ba fa ha).cmd d) ((fair_node ba fa ha).write d) t
  rw [nodeRun_hist ba (by omega), nodeRun_hist ba (by omega)] at h2
  rcases h2 with h2 | h2
  · -- it arrives
    obtain ⟨v, h3, h4⟩ := crash_tcp_carries ba bn hU hV (by omega)
      (hw c ⟨t, hT, by rw [hp]; nofun⟩) (joined_stays sa sn hT h1 hp)
    rcases h4 with h4 | h4
    · -- it is read
      have h5 : Shown (app ((nodeRun r bn).hist v)) (.opened c a) := by
        rw [nodeRun_hist bn (by omega)]
        exact (joined_pipe (joined_stays sa sn hT (by omega) hp)).2.2.1
      obtain ⟨w, h6, h7⟩ := C127_received_partial (fair_node bn hf hn) (read_node bn hr) (settles_node bn hb) h5
      rw [nodeRun_hist bn (by omega), nodeRun_hist bn (by omega)] at h7
      refine ⟨w, by omega, ?_⟩
      rcases h7 with h7 | ⟨p, h7, h8⟩
      · exact .inl (.inr (.inl h7))
      · exact .inr ⟨p, (h2.trans h4).trans h7, h8⟩
    · exact ⟨v, by omega, .inl (.inr (.inr h4))⟩
  · exact ⟨u, h1, .inl (.inl h2)⟩

/-- **C146.** Programs connected by TCP may crash again and again before time `T`, but those at `a` and `n` do
not afterwards; in both nobody is passed over, no handle at `n` stays full for ever, and TCP carries what was
written. The connections between the two come in pairs of ends. Everything that `send` and `send_to` accept at
one end of a connection is read at the other end, byte by byte, and all messages of what was read are handed to
the handles of their interfaces or dropped, unless the connection is broken. -/
theorem C146_bytes_partial (sa : Stays r a T) (sn : Stays r n T) (ha : own a = true) (hn : own n = true)
    (fa : Fair r a) (hf : Fair r n) (hr : Read r n) (hb : Settles r n) (hw : Carries r n T) :
    ∃ pair : Nat → Nat → Nat → Prop, Coupled r a n T pair ∧
      ∀ t c d, T ≤ t → pair t c d → ∃ u, t ≤ u ∧ (Useless n c a d (r.hist u) ∨
        ∃ p, ((accepted d (app (life a (r.hist t)))).map wireForm).flatten <+: p.flatten ∧
          p <+: reads c (app (life n (r.hist u))) ∧
          p.flatMap contents <+: settled c (app (life n (r.hist u)))) :=
  ⟨joined r a n, joined_coupled sa sn ha hn, fun _ _ _ hT hp => crash_tcp_bytes sa sn fa hf hr hb hw hT hp⟩

/-- From one end to the other, if every read ends between messages. -/
theorem crash_tcp_whole (sa : Stays r a T) (sn : Stays r n T) (fa : Fair r a) (hf : Fair r n) (hr : Read r n)
    (hb : Settles r n) (hw : Carries r n T) {t : Nat} (hT : T ≤ t) (hp : joined r a n t c d)
    (hpl : ∀ u, T ≤ u → ∀ m₀ ∈ accepted d (app (life a (r.hist u))), Plain m₀)
    (hwh : ∀ u, T ≤ u → ∀ b ∈ reads c (app (life n (r.hist u))), Whole b) :
    ∃ u, t ≤ u ∧ (Useless n c a d (r.hist u) ∨
      accepted d (app (life a (r.hist t))) <+: settled c (app (life n (r.hist u)))) := by
  obtain ⟨u, h1, h2⟩ := crash_tcp_bytes sa sn fa hf hr hb hw hT hp
  refine ⟨u, h1, h2.imp_right ?_⟩
  rintro ⟨p, h3, h4, h5⟩
  refine List.IsPrefix.trans ?_ h5
  -- what is heard was accepted
  have h6 : arrived c (life n (r.hist u)) <+: written d (life a (r.hist u)) :=
    ⟨_, (joined_pipe (joined_stays sa sn hT h1 hp)).2.2.2.2.2.symm⟩
  have h7 := C87_messages_partial (living (r.exec u) a) (living (r.exec u) n) h6 (hpl u (by omega))
    (hwh u (by omega))
  have h8 : p.flatMap contents <+: accepted d (app (life a (r.hist u))) := by
    refine List.IsPrefix.trans ?_ h7
    obtain ⟨q, h8⟩ := h4
    rw [Node.heard_eq, ← h8, List.flatMap_append]
    exact List.prefix_append ..
  have h9 : accepted d (app (life a (r.hist t))) <+: accepted d (app (life a (r.hist u))) := by
    obtain ⟨U, hU, ba⟩ := begins sa
    obtain ⟨v, h9⟩ := life_grows ba (show U ≤ t by omega) h1
    rw [h9, tcp_app_append, accepted_append]
    exact List.prefix_append ..
  -- and it is as long
  have h10 : p.flatten = (p.flatMap contents).flatMap frame := by
    have hq : ∀ b ∈ p, Whole b := fun b hb => hwh u (by omega) b (h4.subset hb)
    clear h3 h4 h5 h8
    induction p with
    | nil => rfl
    | cons b p ih =>
      obtain ⟨ms, h11, rfl⟩ := hq b (List.mem_cons_self ..)
      rw [List.flatten_cons, List.flatMap_cons, List.flatMap_append, ← ih fun b hb => hq b (List.mem_cons_of_mem _ hb),
        Rt.Ep.contents_eq (Frames.flatMap ms h11)]
  have h11 : ((accepted d (app (life a (r.hist t)))).map wireForm).flatten =
      (accepted d (app (life a (r.hist t)))).flatMap frame := by
    rw [List.flatMap_def]
    congr 1
    refine List.map_congr_left fun m₀ hm => ?_
    rw [wireForm, if_pos (hpl t hT m₀ hm).2]
  rw [h10, h11] at h3
  rcases List.prefix_or_prefix_of_prefix h9 h8 with h12 | ⟨q, h12⟩
  · exact h12
  · rw [← h12, List.flatMap_append] at h3
    cases q with
    | nil => rw [← h12, List.append_nil]
    | cons x q =>
      exfalso
      have h13 := h3.length_le
      simp only [List.length_append, List.flatMap_cons] at h13
      have h14 : 0 < (frame x).length := by rw [frame_length]; omega
      omega

/-- A message accepted at one end is dealt with at the other end, after it was accepted. -/
theorem crash_tcp_dealt (sa : Stays r a T) (sn : Stays r n T) (fa : Fair r a) (hf : Fair r n) (hr : Read r n)
    (hb : Settles r n) (hw : Carries r n T) {t t' : Nat} (hT : T ≤ t) (hT' : T ≤ t') (hp : joined r a n t' c d)
    (hpl : ∀ u, T ≤ u → ∀ m₀ ∈ accepted d (app (life a (r.hist u))), Plain m₀)
    (hwh : ∀ u, T ≤ u → ∀ b ∈ reads c (app (life n (r.hist u))), Whole b)
    {x : TcpNode.Action} {y : Rt.Ep.Action} {j : Nat} {o : TcpNode.Obs} {m : Msg}
    (h : r.act t = some (.net a x j, o)) (ho : o.ep = some (y, .accepted d m)) :
    ∃ u, t ≤ u ∧ (Useless n c a d (r.hist u) ∨ Shown (app (life n (r.hist u))) (.opened c a) ∧
      ∃ q, settled c (app (life n (r.hist u))) = settled c (app (life n (r.hist t))) ++ q ∧ m ∈ q) := by
  have hp' := joined_stays sa sn hT' (Nat.le_max_right (t + 1) t') hp
  obtain ⟨u, h1, h2⟩ := crash_tcp_whole sa sn fa hf hr hb hw (by omega) hp' hpl hwh
  have htu : t ≤ u := by omega
  refine ⟨u, htu, h2.imp_right fun h2 => ⟨?_, ?_⟩⟩
  · exact (joined_pipe (joined_stays sa sn (by omega) h1 hp')).2.2.1
  obtain ⟨U, hU, ba⟩ := begins sa
  obtain ⟨V, hV, bn⟩ := begins sn
  obtain ⟨v, h3⟩ := life_grows ba (show U ≤ t + 1 by omega) (show t + 1 ≤ max (t + 1) t' by omega)
  obtain ⟨w, h4⟩ := life_grows bn (show V ≤ t by omega) htu
  -- what was dealt with before was accepted before
  have h5 : settled c (app (life n (r.hist t))) <+: accepted d (app (life a (r.hist t))) := by
    have h5 := joined_arrived sa sn hT (show t ≤ max (t + 1) t' by omega) hp'
    have h6 := C87_messages_partial (living (r.exec t) a) (living (r.exec t) n) h5 (hpl t hT) (hwh t hT)
    exact ((Rt.Ep.line (TcpNode.part (living (r.exec t) n))).prefix c).trans h6
  obtain ⟨z, h5⟩ := h5
  refine ⟨settled c (app w), by rw [h4, tcp_app_append, settled_append], ?_⟩
  have h6 : m ∈ accepted d (app [(x, o)]) := by
    simp [accepted, app, ho]
  have h7 : life a (r.hist (t + 1)) = life a (r.hist t) ++ [(x, o)] := by
    rw [r.hist_succ, h, Option.toList_some, life, story_here]; rfl
  rw [h3, h7, tcp_app_append, tcp_app_append, accepted_append,
    accepted_append, ← h5, h4, tcp_app_append, settled_append, List.append_assoc, List.append_assoc,
    List.prefix_append_right_inj] at h2
  exact h2.subset (by simp [h6])

/-- What is sent at one end is handed to a stub at the other. -/
theorem crash_tcp_request (sa : Stays r a T) (sn : Stays r n T) (hn : own n = true)
    (fa : Fair r a) (hf : Fair r n) (hr : Read r n) (hb : Settles r n) (hw : Carries r n T) :
    ∀ t t' c d, T ≤ t → T ≤ t' → joined r a n t' c d →
      (∀ u, T ≤ u → ∀ m₀ ∈ accepted d (app (life a (r.hist u))), Plain m₀) →
      (∀ u, T ≤ u → ∀ b ∈ reads c (app (life n (r.hist u))), Whole b) →
      ∀ k i id, r.FairTo (At n (· = .app (.stubRecv k))) →
        Shown (app (life n (r.hist t))) (.serving k i id) →
        ∀ x y j o m, r.act t = some (.net a x j, o) → o.ep = some (y, .accepted d m) → For m id →
          ∃ u, t ≤ u ∧ (Useless n c a d (r.hist u) ∨ (.dropStub k, .none) ∈ app (life n (r.hist u)) ∨
            (∃ l, (.acceptNone l, .ended) ∈ app (life n (r.hist u))) ∨
            ∃ q, stubGot k (app (life n (r.hist u))) = stubGot k (app (life n (r.hist t))) ++ q ∧
              (m, a) ∈ q) := by
  intro t t' c d hT hT' hp hpl hwh k i id hg hk x y j o m h ho hi
  obtain ⟨u, h1, h2 | ⟨h2, q, h3, h4⟩⟩ := crash_tcp_dealt sa sn fa hf hr hb hw hT hT' hp hpl hwh h ho
  · exact ⟨u, h1, .inl h2⟩
  obtain ⟨V, hV, bn⟩ := begins sn
  have e1 : ∀ v, V ≤ v → (TcpNode.epRun (nodeRun r bn)).hist v = app (life n (r.hist v)) := fun v hv => by
    rw [TcpNode.epRun_hist, nodeRun_hist bn hv]
  have hf' := fair_node bn hf hn
  obtain ⟨v, h5, h6⟩ := dealt_returned (r := TcpNode.epRun (nodeRun r bn)) (t := t) (u := u) (c := c) (a := a)
    (q := q) (m := m) (id := id) (i := i)
    (tcp_fair_stubRecv (node_fair bn hn (by rintro x rfl; simp) hg))
    (C104_calls_partial _ (TcpNode.ep_fair hf') (TcpNode.ep_read (read_node bn hr))
      (TcpNode.ep_settles (settles_node bn hb)) k)
    (by rw [e1 _ (by omega)]; exact hk) hi h1 (by rw [e1 _ (by omega)]; exact h2)
    (by rw [e1 _ (by omega), e1 _ (by omega)]; exact h3) h4
  rw [e1 v (by omega), e1 t (by omega)] at h6
  exact ⟨v, h5, .inr h6⟩

/-- **C146**, the part about messages that holds. Programs connected by TCP may crash again and again before
time `T`, but those at `a` and `n` do not afterwards; nobody is passed over in them, TCP carries what was
written, and no handle at `n` stays full for ever. The program at `a` sends a message for an interface for which
there is a stub in the present life of the program at `n`, on a connection the other end of which is or will be
accepted there. If every read on it ends between messages and the messages sent on it can be expressed in the
format, and the user of the stub calls `recv_from` again and again, then the stub returns the message, as message
from `a`, after it was sent; unless the connection breaks, the stub is dropped, or accepting connections has
failed at `n`. What is missing: reads that end inside a message (`C128_false`) and handles that stay full
(`C127_deadlock`). -/
theorem C146_request_partial (sa : Stays r a T) (sn : Stays r n T) (ha : own a = true) (hn : own n = true)
    (fa : Fair r a) (hf : Fair r n) (hr : Read r n) (hb : Settles r n) (hw : Carries r n T) :
    ∃ pair : Nat → Nat → Nat → Prop, Coupled r a n T pair ∧
      ∀ t t' c d, T ≤ t → T ≤ t' → pair t' c d →
        (∀ u, T ≤ u → ∀ m₀ ∈ accepted d (app (life a (r.hist u))), Plain m₀) →
        (∀ u, T ≤ u → ∀ b ∈ reads c (app (life n (r.hist u))), Whole b) →
        ∀ k i id, r.FairTo (At n (· = .app (.stubRecv k))) →
          Shown (app (life n (r.hist t))) (.serving k i id) →
          ∀ x y j o m, r.act t = some (.net a x j, o) → o.ep = some (y, .accepted d m) → For m id →
            ∃ u, t ≤ u ∧ (Useless n c a d (r.hist u) ∨ (.dropStub k, .none) ∈ app (life n (r.hist u)) ∨
              (∃ l, (.acceptNone l, .ended) ∈ app (life n (r.hist u))) ∨
              ∃ q, stubGot k (app (life n (r.hist u))) = stubGot k (app (life n (r.hist t))) ++ q ∧
                (m, a) ∈ q) :=
  ⟨joined r a n, joined_coupled sa sn ha hn, crash_tcp_request sa sn hn fa hf hr hb hw⟩

/-- What is sent at one end is handed to a proxy at the other. -/
theorem crash_tcp_reply (sa : Stays r a T) (sn : Stays r n T) (hn : own n = true)
    (fa : Fair r a) (hf : Fair r n) (hr : Read r n) (hb : Settles r n) (hw : Carries r n T) :
    ∀ t t' c d, T ≤ t → T ≤ t' → joined r a n t' c d →
      (∀ u, T ≤ u → ∀ m₀ ∈ accepted d (app (life a (r.hist u))), Plain m₀) →
      (∀ u, T ≤ u → ∀ b ∈ reads c (app (life n (r.hist u))), Whole b) →
      ∀ p i id, r.FairTo (At n (· = .app (.proxyRecv p))) →
        Shown (app (life n (r.hist t))) (.proxying p i id a) →
        ∀ x y j o m, r.act t = some (.net a x j, o) → o.ep = some (y, .accepted d m) → For m id →
          ∃ u, t ≤ u ∧ (Useless n c a d (r.hist u) ∨ (.dropProxy p, .none) ∈ app (life n (r.hist u)) ∨
            Spec.TcpNode.CutOff p a (life n (r.hist u)) ∨
            ∃ q, proxyGot p (app (life n (r.hist u))) = proxyGot p (app (life n (r.hist t))) ++ q ∧
              m ∈ q) := by
  intro t t' c d hT hT' hp hpl hwh p i id hg hk x y j o m h ho hi
  obtain ⟨u, h1, h2 | ⟨h2, q, h3, h4⟩⟩ := crash_tcp_dealt sa sn fa hf hr hb hw hT hT' hp hpl hwh h ho
  · exact ⟨u, h1, .inl h2⟩
  obtain ⟨V, hV, bn⟩ := begins sn
  have e1 : ∀ v, V ≤ v → (TcpNode.epRun (nodeRun r bn)).hist v = app (life n (r.hist v)) := fun v hv => by
    rw [TcpNode.epRun_hist, nodeRun_hist bn hv]
  obtain ⟨v, h5, h6⟩ := dealt_replied (r := TcpNode.epRun (nodeRun r bn)) (t := t) (u := u) (c := c) (a := a)
    (q := q) (m := m) (id := id) (i := i)
    (tcp_fair_proxyRecv (node_fair bn hn (by rintro x rfl; simp) hg))
    (by rw [e1 _ (by omega)]; exact hk) hi h1 (by rw [e1 _ (by omega)]; exact h2)
    (by rw [e1 _ (by omega), e1 _ (by omega)]; exact h3) h4
  rw [e1 v (by omega), e1 t (by omega)] at h6
  refine ⟨v, h5, .inr (h6.imp (fun h => h) fun h6 => h6.imp_left ?_)⟩
  rintro ⟨e, h7, ⟨x, h8, h9⟩, h10⟩
  exact ⟨e, h7, ends_broke (living (r.exec v) n) h8 h9, h10⟩

/-- **C146**, the part about messages that holds, for proxies. As before; the proxy at `n` is for the program at
`a`, made before or after the last crash of that one. The exceptions are that the connection breaks, the proxy is
dropped, or the operating system has reported an error on a connection to `a`, the only one on which the proxy has
sent, if any. What is missing: as before. -/
theorem C146_reply_partial (sa : Stays r a T) (sn : Stays r n T) (ha : own a = true) (hn : own n = true)
    (fa : Fair r a) (hf : Fair r n) (hr : Read r n) (hb : Settles r n) (hw : Carries r n T) :
    ∃ pair : Nat → Nat → Nat → Prop, Coupled r a n T pair ∧
      ∀ t t' c d, T ≤ t → T ≤ t' → pair t' c d →
        (∀ u, T ≤ u → ∀ m₀ ∈ accepted d (app (life a (r.hist u))), Plain m₀) →
        (∀ u, T ≤ u → ∀ b ∈ reads c (app (life n (r.hist u))), Whole b) →
        ∀ p i id, r.FairTo (At n (· = .app (.proxyRecv p))) →
          Shown (app (life n (r.hist t))) (.proxying p i id a) →
          ∀ x y j o m, r.act t = some (.net a x j, o) → o.ep = some (y, .accepted d m) → For m id →
            ∃ u, t ≤ u ∧ (Useless n c a d (r.hist u) ∨ (.dropProxy p, .none) ∈ app (life n (r.hist u)) ∨
              Spec.TcpNode.CutOff p a (life n (r.hist u)) ∨
              ∃ q, proxyGot p (app (life n (r.hist u))) = proxyGot p (app (life n (r.hist t))) ++ q ∧
                m ∈ q) :=
  ⟨joined r a n, joined_coupled sa sn ha hn, crash_tcp_reply sa sn hn fa hf hr hb hw⟩

end

/-! ### Runs with crashes that come to rest -/

section
open Rt Rt.TcpCrash Spec Spec.TcpCrash
open Spec.TcpNet (ArriveStep allPlain)
open Spec.TcpNode (written arrived app Plain Whole Broke)
open Spec.Ep (Shown accepted settled ConnOver For stubGot proxyGot)
open Spec.Node (reads)
open Spec.Net (two answerA)

/-- Programs 5 and 6 can do nothing, they are connected only with each other, and nothing is under way. -/
def Spec.TcpCrash.calm (s : State) : Bool :=
  Spec.TcpNode.calm (s.nodes 5) && Spec.TcpNode.calm (s.nodes 6) &&
  ([5, 6] : List Addr).all fun n => (List.range (s.nodes n).ep.connCount).all fun c =>
    match s.peer n (s.base n + c) with
    | some w => s.pipe w.1 w.2 == []
    | none => false

theorem crash_tcp_calm {tr : Trace} {s : State} (e : Exec (step two) init tr s) (h : calm s = true) :
    ∃ r : Run two, (∀ n, two n = true → Fair r n ∧ Read r n ∧ Settles r n ∧ ∀ T, Carries r n T) ∧
      (∀ n P, (∀ x, P x → TcpNode.step (s.nodes n) x = none) → r.FairTo (At n P)) ∧
      ∀ t, tr.length ≤ t → r.state t = s ∧ r.hist t = tr ∧ r.act t = none := by
  simp only [calm, Bool.and_eq_true, List.all_eq_true, List.mem_range] at h
  obtain ⟨⟨h5, h6⟩, hp⟩ := h
  have hown : ∀ n, two n = true → n = 5 ∨ n = 6 := fun n hn => by simpa [two] using hn
  have hmem : ∀ n, two n = true → n ∈ ([5, 6] : List Addr) := fun n hn => by
    rcases hown n hn with rfl | rfl <;> simp
  have hcalm : ∀ n, two n = true → TcpNode.Resting (s.nodes n) ∧ TcpNode.Room (s.nodes n) := by
    intro n hn
    rcases hown n hn with rfl | rfl
    · exact tcp_calm (living e _) h5
    · exact tcp_calm (living e _) h6
  obtain ⟨r, hr⟩ := Endless.of_exec e
  have key : ∀ n P, (∀ x, P x → TcpNode.step (s.nodes n) x = none) → r.FairTo (At n P) := by
    intro n P hP hio
    obtain ⟨t, ht, a, o, s', ⟨y, d, rfl, h1⟩, h2⟩ := hio tr.length
    rw [(hr t ht).1] at h2
    have := hP y h1
    simp [step, this] at h2
  refine ⟨r, fun n hn => ?_, key, hr⟩
  have rest : ∀ P : TcpNode.Action → Prop, (∀ x, P x → TcpNode.GetsOn x) → r.FairTo (At n P) :=
    fun P hP => key n P fun x hx => (hcalm n hn).1 x (hP x hx)
  refine ⟨⟨rest _ ?_, fun l => rest _ ?_, fun l => rest _ ?_, fun l => rest _ ?_, fun l => rest _ ?_,
    fun l => rest _ ?_, fun l => rest _ ?_⟩, ⟨fun k N => ⟨max N tr.length, Nat.le_max_left .., ?_⟩,
    fun p N => ⟨max N tr.length, Nat.le_max_left .., ?_⟩⟩, ⟨tr.length, ?_⟩, fun T c _ => ?_⟩
  · rintro x ⟨ok, rfl⟩; exact .inl ⟨_, rfl, by simp⟩
  · rintro x rfl; exact .inl ⟨_, rfl, by simp⟩
  · rintro x rfl; exact .inl ⟨_, rfl, by simp⟩
  · rintro x rfl; exact .inl ⟨_, rfl, by simp⟩
  · rintro x ⟨k, hk, rfl⟩; exact .inr (.inr ⟨_, _, hk, rfl⟩)
  · rintro x ⟨k, rfl⟩; exact .inr (.inl ⟨_, _, rfl⟩)
  · rintro x rfl; exact .inl ⟨_, rfl, by simp⟩
  · rw [(hr _ (Nat.le_max_right ..)).1]; exact (hcalm n hn).2.1 k
  · rw [(hr _ (Nat.le_max_right ..)).1]; exact (hcalm n hn).2.2 p
  · rintro t ht ⟨a, o, h7, _⟩
    rw [(hr t ht).2.2] at h7
    cases h7
  · intro hio
    exfalso
    obtain ⟨t, ht, a, o, s', ⟨y, d, rfl, b, hb, rfl⟩, h2⟩ := hio tr.length
    rw [(hr t ht).1] at h2
    obtain ⟨-, h3, z, h4, -⟩ := step_net h2
    have hc : c < (s.nodes n).ep.connCount := by
      apply Classical.byContradiction
      intro hc
      simp [TcpNode.step, hc] at h4
    have h5 := hp n (hmem n hn) c hc
    cases h6 : s.peer n (s.base n + c) with
    | none => rw [h6] at h5; cases h5
    | some w =>
      rw [h6] at h5
      have h5 : s.pipe w.1 w.2 = [] := by simpa using h5
      cases b with
      | nil => exact hb rfl
      | cons x b => simp [possible, h6, h5] at h3

theorem crash_tcp_act {own : Addr → Bool} {r : Run own} {tr : Trace} {i : Nat} {x : Action × TcpNode.Obs}
    (r3 : r.hist tr.length = tr) (g6 : tr[i]? = some x) : ∃ j, r.hist j = tr.take i ∧ r.act j = some x := by
  obtain ⟨v, h3, -, h4⟩ := r.segment_acts (Nat.zero_le tr.length)
  rw [r3] at h3
  have h0 : r.hist 0 = [] := rfl
  rw [h0, List.nil_append] at h3
  subst h3
  obtain ⟨hlt, h5⟩ := List.getElem?_eq_some_iff.mp g6
  have h6 : tr = tr.take i ++ tr[i] :: tr.drop (i + 1) := by
    rw [List.getElem_cons_drop, List.take_append_drop]
  obtain ⟨j, -, h7, h8⟩ := h4 _ _ _ h6
  exact ⟨j, by rw [h8, h0, List.nil_append], by rw [h7, h5]⟩

/-- What happens from a time on in a run that comes to rest. -/
theorem crash_tcp_rest {own : Addr → Bool} {r : Run own} {tr : Trace} {s : State} {i j t : Nat}
    (r3 : ∀ t, tr.length ≤ t → r.state t = s ∧ r.hist t = tr ∧ r.act t = none) (hj : r.hist j = tr.take i)
    (ht : j ≤ t) : ∃ v, v <+: tr.drop i ∧ r.hist t = tr.take i ++ v := by
  obtain ⟨v, h2, -⟩ := r.segment ht
  obtain ⟨w, h3, -⟩ := r.segment (Nat.le_max_left t tr.length)
  rw [(r3 _ (Nat.le_max_right ..)).2.1, h2, hj, List.append_assoc] at h3
  refine ⟨v, ⟨w, ?_⟩, by rw [h2, hj]⟩
  refine List.append_cancel_left (as := tr.take i) ?_
  rw [List.take_append_drop]
  exact h3.symm

theorem crash_tcp_stays {own : Addr → Bool} {r : Run own} {tr : Trace} {s : State} {i j : Nat} {n : Addr}
    (r3 : ∀ t, tr.length ≤ t → r.state t = s ∧ r.hist t = tr ∧ r.act t = none) (hj : r.hist j = tr.take i)
    (hi : i ≤ tr.length) (h : ∀ x ∈ tr.drop i, x.1 ≠ .crash n) : Stays r n j := by
  rintro t ht ⟨a, o, h1, rfl⟩
  obtain ⟨v, ⟨w, h2⟩, h3⟩ := crash_tcp_rest r3 hj ht
  obtain ⟨v', ⟨w', h2'⟩, h3'⟩ := crash_tcp_rest r3 hj (Nat.le_succ_of_le ht)
  rw [r.hist_succ, h1, Option.toList_some, h3, List.append_assoc] at h3'
  have h4 := List.append_cancel_left h3'
  exact h (.crash n, o) (by rw [← h2', ← h4]; simp) rfl

/-- The program at 6 serves an interface, crashes, and serves it again. The program at 5 connects to it,
crashes, and connects to it again; and they talk. -/
def Spec.TcpCrash.anew : List Action :=
  (Spec.TcpNet.dialogue.take 7).map (fun x => .net x.1 x.2.1 x.2.2) ++ [.crash 6] ++
  (Spec.TcpNet.dialogue.take 15).map (fun x => .net x.1 x.2.1 x.2.2) ++ [.crash 5] ++
  (Spec.TcpNet.dialogue.drop 7).map
    (fun x => .net x.1 x.2.1 (if x.2.1 = .app (.accept 0 5) then 1 else x.2.2)) ++
  [.net 5 (.app (.proxyRecv 0)) 0]

theorem shown_any {tr : Spec.Ep.Trace} {w : Rt.Ep.Obs} (h : tr.any (fun x => decide (x.2 = w)) = true) :
    Shown tr w := by
  obtain ⟨⟨y, w'⟩, h9, h10⟩ := List.any_eq_true.mp h
  simp only [decide_eq_true_eq] at h10
  exact ⟨y, by rw [← h10]; exact h9⟩

/-- From some time on a run that comes to rest shows the beginning of what it shows in the end. -/
theorem crash_tcp_sub {own : Addr → Bool} {r : Run own} {tr : Trace} {s : State} {n : Addr} {T t : Nat}
    (r3 : ∀ t, tr.length ≤ t → r.state t = s ∧ r.hist t = tr ∧ r.act t = none) (sn : Stays r n T) (ht : T ≤ t) :
    ∃ w, life n tr = life n (r.hist t) ++ w := by
  obtain ⟨V, hV, bn⟩ := begins sn
  obtain ⟨w, hw⟩ := life_grows bn (show V ≤ t by omega) (Nat.le_max_left t tr.length)
  rw [(r3 _ (Nat.le_max_right ..)).2.1] at hw
  exact ⟨w, hw⟩

/-- In such a run a connection goes on being of use. -/
theorem crash_tcp_useful {own : Addr → Bool} {r : Run own} {tr : Trace} {s : State} {n a : Addr} {c d T t : Nat}
    (e : Exec (step own) init tr s)
    (r3 : ∀ t, tr.length ≤ t → r.state t = s ∧ r.hist t = tr ∧ r.act t = none) (sa : Stays r a T)
    (sn : Stays r n T) (ht : T ≤ t) (h1 : Spec.TcpNode.errorless (life a tr) = true)
    (h2 : ((s.nodes n).ep.conns c).alive = true)
    (h3 : ∀ x ∈ life n tr, (match x.1 with | .shut _ => false | _ => true) = true) :
    ¬ Useless n c a d (r.hist t) := by
  obtain ⟨w, hw⟩ := crash_tcp_sub r3 sa ht
  obtain ⟨v, hv⟩ := crash_tcp_sub r3 sn ht
  rintro (h | h | ⟨o, h⟩)
  · refine errorless_spec h1 d ?_
    rw [hw]
    rcases h with ⟨x, h2, h3⟩ | ⟨x, h2, h3⟩
    · exact .inl ⟨x, List.mem_append_left _ h2, h3⟩
    · exact .inr ⟨x, List.mem_append_left _ h2, h3⟩
  · refine ((Rt.Ep.conn_open_iff (TcpNode.part (living e n)) c).mp h2).2 ?_
    rw [hv, tcp_app_append]
    rcases h with ⟨x, hu⟩ | hu | ⟨x, hu⟩
    · exact .inl ⟨x, List.mem_append_left _ hu⟩
    · exact .inr (.inl (List.mem_append_left _ hu))
    · exact .inr (.inr ⟨x, List.mem_append_left _ hu⟩)
  · cases h3 (.shut c, o) (by rw [hv]; exact List.mem_append_left _ h)

/-- Every pairing of the connections pairs this one: accepted at 6 and opened at 5, where nothing was written in
the life before. -/
theorem crash_tcp_pair {r : Run two} {tr : Trace} {s : State} {T : Nat} (e : Exec (step two) init tr s)
    (r3 : ∀ t, tr.length ≤ t → r.state t = s ∧ r.hist t = tr ∧ r.act t = none)
    (h1 : (.accept 0 5, .opened 0 5) ∈ app (life 6 tr)) (h2 : (s.nodes 5).ep.connCount = 1)
    (h3 : arrived 0 (life 6 tr) ≠ []) (h4 : (former 5 tr).all (fun L => (L.all fun x => x.2.out.isNone)) = true) :
    (∀ pair, Coupled r 5 6 T pair → ∃ t, T ≤ t ∧ pair t 0 0) ∧
    ∀ pair, Coupled r 6 5 T pair → ∃ t, T ≤ t ∧ pair t 0 0 := by
  have r4 := (r3 (max T tr.length) (Nat.le_max_right ..)).2.1
  have fresh : ¬ Stale 5 6 0 tr := by
    rintro ⟨L, hL, d, -, h⟩
    have h5 : written d L = [] := by
      rw [written, List.flatMap_eq_nil_iff]
      intro x hx
      have := List.all_eq_true.mp (List.all_eq_true.mp h4 L hL) x hx
      rw [Option.isNone_iff_eq_none] at this
      simp [this]
    rw [h5, List.prefix_nil] at h
    exact h3 h
  have only : ∀ d, Shown (app (life 5 tr)) (.opened d 6) → d = 0 := by
    intro d hd
    have := (Rt.Ep.opened_addr (TcpNode.part (living e 5)) hd).1
    omega
  constructor
  · intro pair hp
    refine ⟨max T tr.length, Nat.le_max_left .., ?_⟩
    rcases hp.here (max T tr.length) 0 0 (Nat.le_max_left ..) (by rw [r4]; exact h1) with ⟨d, h⟩ | h
    · have := (hp.opened _ _ _ (Nat.le_max_left ..) h).2
      rw [r4] at this
      rw [only d this] at h
      exact h
    · rw [r4] at h
      exact absurd h fresh
  · intro pair hp
    refine ⟨max T tr.length, Nat.le_max_left .., ?_⟩
    rcases hp.there (max T tr.length) 0 0 (Nat.le_max_left ..) (by rw [r4]; exact h1) with ⟨d, h⟩ | h
    · have := (hp.opened _ _ _ (Nat.le_max_left ..) h).1
      rw [r4] at this
      rw [only d this] at h
      exact h
    · rw [r4] at h
      exact absurd h fresh

/-- A run as C146 asks for, in both directions: both programs have crashed; the question is returned by the stub
of the new program at 6, and the answer by the proxy of the new program at 5. -/
theorem crash_tcp_talk : ∃ (r : Run two) (T : Nat),
    (∀ n, two n = true → Stays r n T ∧ Fair r n ∧ Read r n ∧ Settles r n ∧ Carries r n T) ∧
    ((∃ u, u < T ∧ r.Does u (· = .crash 5)) ∧ ∃ u, u < T ∧ r.Does u (· = .crash 6)) ∧
    ((∀ pair, Coupled r 5 6 T pair → ∃ t, T ≤ t ∧ pair t 0 0) ∧
      ∀ pair, Coupled r 6 5 T pair → ∃ t, T ≤ t ∧ pair t 0 0) ∧
    (∀ t, T ≤ t → ¬ Useless 6 0 5 0 (r.hist t) ∧ ¬ Useless 5 0 6 0 (r.hist t)) ∧
    (∀ n, two n = true → ∀ t, T ≤ t → (∀ m₀ ∈ accepted 0 (app (life n (r.hist t))), Plain m₀) ∧
      ∀ b ∈ reads 0 (app (life n (r.hist t))), Whole b) ∧
    (r.FairTo (At 6 (· = .app (.stubRecv 0))) ∧ r.FairTo (At 5 (· = .app (.proxyRecv 0)))) ∧
    (∃ t o, T ≤ t ∧ Shown (app (life 6 (r.hist t))) (.serving 0 0 ⟨1, 1⟩) ∧
      r.act t = some (.net 5 (.app (.proxySend 0 Ep.msgA)) 0, o) ∧
      o.ep = some (.proxySend 0 Ep.msgA, .accepted 0 Ep.msgA)) ∧
    (∃ t o, T ≤ t ∧ Shown (app (life 5 (r.hist t))) (.proxying 0 0 ⟨1, 1⟩ 6) ∧
      r.act t = some (.net 6 (.app (.stubStep 0)) 0, o) ∧ o.ep = some (.stubStep 0, .accepted 0 answerA)) ∧
    For Ep.msgA ⟨1, 1⟩ ∧ For answerA ⟨1, 1⟩ := by
  obtain ⟨tr, s, e, h⟩ := exec_by (step := step two) (s := init) anew
    (fun (tr : Trace) s => calm s && Spec.TcpNode.errorless (life 5 tr) && Spec.TcpNode.errorless (life 6 tr) &&
      allPlain (app (life 5 tr)) && allPlain (app (life 6 tr)) && decide (
      (((s.nodes 6).ep.conns 0).alive = true ∧ ((s.nodes 5).ep.conns 0).alive = true ∧
      (∀ x ∈ life 6 tr, (match x.1 with | .shut _ => false | _ => true) = true) ∧
      (∀ x ∈ life 5 tr, (match x.1 with | .shut _ => false | _ => true) = true) ∧
      ((Rt.Ep.Action.accept 0 5, Rt.Ep.Obs.opened 0 5) : Rt.Ep.Action × Rt.Ep.Obs) ∈ app (life 6 tr) ∧
      reads 0 (app (life 6 tr)) = [frame Ep.msgA] ∧ reads 0 (app (life 5 tr)) = [frame answerA])) && decide (
      tr[7]? = some ((.crash 6, ⟨none, none⟩) : Action × TcpNode.Obs) ∧
      tr[23]? = some ((.crash 5, ⟨none, none⟩) : Action × TcpNode.Obs) ∧
      tr[24]?.isSome = true ∧ (∀ x ∈ tr.drop 24, x.1 ≠ .crash 5 ∧ x.1 ≠ .crash 6) ∧
      tr[32]? = some ((.net 5 (.app (.proxySend 0 Ep.msgA)) 0,
        ⟨some (.proxySend 0 Ep.msgA, .accepted 0 Ep.msgA), none⟩) : Action × TcpNode.Obs) ∧
      (app (life 6 (tr.take 32))).any (fun x => decide (x.2 = .serving 0 0 ⟨1, 1⟩)) = true ∧
      tr[48]? = some ((.net 6 (.app (.stubStep 0)) 0,
        ⟨some (.stubStep 0, .accepted 0 answerA), none⟩) : Action × TcpNode.Obs) ∧
      (app (life 5 (tr.take 48))).any (fun x => decide (x.2 = .proxying 0 0 ⟨1, 1⟩ 6)) = true ∧
      (s.nodes 5).ep.connCount = 1 ∧ arrived 0 (life 6 tr) ≠ [] ∧
      (former 5 tr).all (fun L => (L.all fun x => x.2.out.isNone)) = true ∧
      (TcpNode.step (s.nodes 6) (.app (.stubRecv 0))).isNone = true) &&
      (TcpNode.step (s.nodes 5) (.app (.proxyRecv 0))).isNone)
    (by decide +kernel)
  simp only [Bool.and_eq_true, decide_eq_true_eq, Option.isNone_iff_eq_none] at h
  obtain ⟨⟨⟨⟨⟨⟨⟨g1, g2⟩, g2'⟩, g3⟩, g3'⟩, g4, g4', g5, g5', g6, g8, g8'⟩, c6, c5, c0, g9, g10, g11, g12, g13, g14, g15,
    g16, g17⟩, g18⟩ := h
  obtain ⟨r, r1, r2, r3⟩ := crash_tcp_calm e g1
  have r4 := (r3 _ (Nat.le_refl _)).2.1
  obtain ⟨x0, hx0⟩ := Option.isSome_iff_exists.mp c0
  obtain ⟨T, hT, -⟩ := crash_tcp_act r4 hx0
  have hl : 24 ≤ tr.length := Nat.le_of_lt (List.getElem?_eq_some_iff.mp hx0).1
  have s5 := crash_tcp_stays (n := 5) r3 hT hl fun x hx => (g9 x hx).1
  have s6 := crash_tcp_stays (n := 6) r3 hT hl fun x hx => (g9 x hx).2
  have hown : ∀ n, two n = true → n = 5 ∨ n = 6 := fun n hn => by simpa [two] using hn
  have hst : ∀ n, two n = true → Stays r n T := fun n hn => by rcases hown n hn with rfl | rfl <;> assumption
  have hA : Plain Ep.msgA := ⟨by unfold Normal; decide, by decide⟩
  have hB : Plain answerA := ⟨by unfold Normal; decide, by decide⟩
  have len : ∀ {i j}, r.hist j = tr.take i → i ≤ tr.length → (r.hist j).length = i := by
    intro i j h hi
    rw [h, List.length_take]; omega
  have before : ∀ {i j}, r.hist j = tr.take i → i < 24 → j < T := by
    intro i j h hi
    refine Nat.lt_of_not_le fun hj => ?_
    obtain ⟨v, h1, -⟩ := r.segment hj
    have := len h (by omega)
    rw [h1, List.length_append, len hT hl] at this
    omega
  have after : ∀ {i j}, r.hist j = tr.take i → 24 < i → i ≤ tr.length → T ≤ j := by
    intro i j h hi hil
    refine Nat.le_of_not_lt fun hj => ?_
    obtain ⟨v, h1, -⟩ := r.segment (Nat.le_of_lt hj)
    have := len hT hl
    rw [h1, List.length_append, len h hil] at this
    omega
  refine ⟨r, T, fun n hn => ⟨hst n hn, (r1 n hn).1, (r1 n hn).2.1, (r1 n hn).2.2.1, (r1 n hn).2.2.2 T⟩, ⟨?_, ?_⟩,
    crash_tcp_pair e r3 g6 g14 g15 g16, fun t ht => ⟨crash_tcp_useful e r3 s5 s6 ht g2 g4 g5,
      crash_tcp_useful e r3 s6 s5 ht g2' g4' g5'⟩, fun n hn t ht => ⟨fun m₀ hm => ?_, fun b hb => ?_⟩,
    ⟨r2 _ _ (by rintro x rfl; exact g17), r2 _ _ (by rintro x rfl; exact g18)⟩, ?_, ?_, by unfold For; decide⟩
  · obtain ⟨j, h1, h2⟩ := crash_tcp_act r4 c5
    exact ⟨j, before h1 (by omega), _, _, h2, rfl⟩
  · obtain ⟨j, h1, h2⟩ := crash_tcp_act r4 c6
    exact ⟨j, before h1 (by omega), _, _, h2, rfl⟩
  · obtain ⟨w, hw⟩ := crash_tcp_sub r3 (hst n hn) ht
    have hall : allPlain (app (life n tr)) = true := by
      rcases hown n hn with rfl | rfl
      · exact g3
      · exact g3'
    obtain ⟨z, hz⟩ := accepted_mem hm
    exact plain_of_all hall z 0 _ (by rw [hw, tcp_app_append]; exact List.mem_append_left _ hz)
  · obtain ⟨w, hw⟩ := crash_tcp_sub r3 (hst n hn) ht
    have : b ∈ reads 0 (app (life n tr)) := by
      rw [hw, tcp_app_append, reads_append]
      exact List.mem_append_left _ hb
    rcases hown n hn with rfl | rfl
    · rw [g8'] at this
      cases List.mem_singleton.mp this
      exact ⟨[_], by simpa using hB, by simp⟩
    · rw [g8] at this
      cases List.mem_singleton.mp this
      exact ⟨[_], by simpa using hA, by simp⟩
  · obtain ⟨j, h1, h2⟩ := crash_tcp_act r4 g10
    exact ⟨j, _, after h1 (by omega) (Nat.le_of_lt (List.getElem?_eq_some_iff.mp g10).1),
      by rw [h1]; exact shown_any g11, h2, rfl⟩
  · obtain ⟨j, h1, h2⟩ := crash_tcp_act r4 g12
    exact ⟨j, _, after h1 (by omega) (Nat.le_of_lt (List.getElem?_eq_some_iff.mp g12).1),
      by rw [h1]; exact shown_any g13, h2, rfl⟩

/-- **C146 fails as stated.** Both programs have crashed. The new program at 5 sends a message, which can be
expressed in the format; nobody is passed over, the handles have room, the connection stays. But the message
is read in two pieces. It is never handed to the stub, nor dropped. -/
theorem C146_false : ∃ (r : Run two) (T : Nat),
    (∀ n, two n = true → Stays r n T ∧ Fair r n ∧ Read r n ∧ Settles r n ∧ Carries r n T) ∧
    ((∃ u, u < T ∧ r.Does u (· = .crash 5)) ∧ ∃ u, u < T ∧ r.Does u (· = .crash 6)) ∧
    (∀ pair, Coupled r 5 6 T pair → ∃ t, T ≤ t ∧ pair t 0 0) ∧
    (∀ t, T ≤ t → ¬ Useless 6 0 5 0 (r.hist t)) ∧
    (∀ t, T ≤ t → ∀ m₀ ∈ accepted 0 (app (life 5 (r.hist t))), Plain m₀) ∧
    ∃ t, T ≤ t ∧ accepted 0 (app (life 5 (r.hist t))) = [Ep.msgA] ∧
      ∀ u, T ≤ u → Ep.msgA ∉ settled 0 (app (life 6 (r.hist u))) := by
  obtain ⟨tr, s, e, h⟩ := exec_by (step := step two) (s := init)
    (anew.take 37 ++ [.net 5 (.write 0 (.wrote 100)) 0, .net 6 (.arrive 0 ((frame Ep.msgA).take 16)) 0,
      .net 6 (.read 0 (.read 1400)) 0, .net 6 (.app (.route 0)) 0, .net 6 (.app (.route 0)) 0,
      .net 6 (.app (.route 0)) 0, .net 6 (.arrive 0 ((frame Ep.msgA).drop 16)) 0,
      .net 6 (.read 0 (.read 1400)) 0])
    (fun (tr : Trace) s => calm s && Spec.TcpNode.errorless (life 5 tr) &&
      allPlain (app (life 5 tr)) && decide (
      (((s.nodes 6).ep.conns 0).alive = true ∧
      (∀ x ∈ life 6 tr, (match x.1 with | .shut _ => false | _ => true) = true) ∧
      ((Rt.Ep.Action.accept 0 5, Rt.Ep.Obs.opened 0 5) : Rt.Ep.Action × Rt.Ep.Obs) ∈ app (life 6 tr) ∧
      accepted 0 (app (life 5 tr)) = [Ep.msgA] ∧ Ep.msgA ∉ settled 0 (app (life 6 tr)))) && decide (
      tr[7]? = some ((.crash 6, ⟨none, none⟩) : Action × TcpNode.Obs) ∧
      tr[23]? = some ((.crash 5, ⟨none, none⟩) : Action × TcpNode.Obs) ∧
      tr[24]?.isSome = true ∧ (∀ x ∈ tr.drop 24, x.1 ≠ .crash 5 ∧ x.1 ≠ .crash 6) ∧
      (s.nodes 5).ep.connCount = 1 ∧ arrived 0 (life 6 tr) ≠ [] ∧
      (former 5 tr).all (fun L => (L.all fun x => x.2.out.isNone)) = true))
    (by decide +kernel)
  simp only [Bool.and_eq_true, decide_eq_true_eq] at h
  obtain ⟨⟨⟨⟨g1, g2⟩, g3⟩, g4, g5, g6, g7, g8⟩, c6, c5, c0, g9, g14, g15, g16⟩ := h
  obtain ⟨r, r1, r2, r3⟩ := crash_tcp_calm e g1
  have r4 := (r3 _ (Nat.le_refl _)).2.1
  obtain ⟨x0, hx0⟩ := Option.isSome_iff_exists.mp c0
  obtain ⟨T, hT, -⟩ := crash_tcp_act r4 hx0
  have hl : 24 ≤ tr.length := Nat.le_of_lt (List.getElem?_eq_some_iff.mp hx0).1
  have s5 := crash_tcp_stays (n := 5) r3 hT hl fun x hx => (g9 x hx).1
  have s6 := crash_tcp_stays (n := 6) r3 hT hl fun x hx => (g9 x hx).2
  have hown : ∀ n, two n = true → n = 5 ∨ n = 6 := fun n hn => by simpa [two] using hn
  have hst : ∀ n, two n = true → Stays r n T := fun n hn => by rcases hown n hn with rfl | rfl <;> assumption
  have before : ∀ {i j}, r.hist j = tr.take i → i < 24 → j < T := by
    intro i j h hi
    refine Nat.lt_of_not_le fun hj => ?_
    obtain ⟨v, h1, -⟩ := r.segment hj
    have h2 := congrArg List.length h
    have h3 := congrArg List.length hT
    rw [List.length_take] at h2 h3
    rw [h1, List.length_append] at h2
    omega
  refine ⟨r, T, fun n hn => ⟨hst n hn, (r1 n hn).1, (r1 n hn).2.1, (r1 n hn).2.2.1, (r1 n hn).2.2.2 T⟩, ⟨?_, ?_⟩,
    (crash_tcp_pair e r3 g6 g14 g15 g16).1, fun t ht => crash_tcp_useful e r3 s5 s6 ht g2 g4 g5,
    fun t ht m₀ hm => ?_, max T tr.length, Nat.le_max_left .., ?_, fun u hu h => ?_⟩
  · obtain ⟨j, h1, h2⟩ := crash_tcp_act r4 c5
    exact ⟨j, before h1 (by omega), _, _, h2, rfl⟩
  · obtain ⟨j, h1, h2⟩ := crash_tcp_act r4 c6
    exact ⟨j, before h1 (by omega), _, _, h2, rfl⟩
  · obtain ⟨w, hw⟩ := crash_tcp_sub r3 s5 ht
    obtain ⟨z, hz⟩ := accepted_mem hm
    exact plain_of_all g3 z 0 _ (by rw [hw, tcp_app_append]; exact List.mem_append_left _ hz)
  · rw [(r3 _ (Nat.le_max_right ..)).2.1]; exact g7
  · obtain ⟨w, hw⟩ := crash_tcp_sub r3 s6 hu
    refine g8 ?_
    rw [hw, tcp_app_append, settled_append]
    exact List.mem_append_left _ h

end
end Rsomeip
