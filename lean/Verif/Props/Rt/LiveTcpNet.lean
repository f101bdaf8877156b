import Verif.Lemmas.TcpNetRun
import Verif.Props.Rt.LiveTcp
import Verif.Props.Rt.TcpNet

/-! # C128: programs connected by TCP receive everything in the long run -/

namespace Rsomeip

open Rt Rt.TcpNet Spec Spec.TcpNet
open Spec.TcpNode (written arrived app Plain Whole)
open Spec.Ep (Shown accepted wireForm heard settled contents)
open Spec.Node (reads)

/-- The connection with the ends `c` at `n` and `d` at `m` is of no more use for what is sent from `m` to
`n`: the operating system has reported an error at `m`, the connection has ended at `n`, or TCP has reported
to `n` that nothing more comes. -/
def Spec.TcpNet.Useless (n : Addr) (c : Nat) (m : Addr) (d : Nat) (tr : Trace) : Prop :=
  Spec.TcpNode.Broke d (at_ m tr) ∨ Spec.Ep.ConnOver c (Spec.TcpNode.app (at_ n tr)) ∨
    ∃ o, (.shut c, o) ∈ at_ n tr


section
variable {own : Addr → Bool} {r : Run own}

theorem shut_mem {n : Addr} {c t : Nat} (h : ((r.state t).nodes n).eof c = true) :
    ∃ o, (.shut c, o) ∈ at_ n (r.hist t) := by
  have e := each (r.exec t) n
  generalize at_ n (r.hist t) = tr at e ⊢
  generalize (r.state t).nodes n = s at e h
  induction e with
  | nil => cases h
  | @snoc tr1 s1 s2 act ob e1 hs ih =>
    cases TcpNode.move_of_step hs with
    | shut d hd =>
      by_cases hc : c = d
      · subst hc
        exact ⟨_, List.mem_append_right _ (List.mem_singleton_self _)⟩
      · simp only [upd_ne _ _ hc] at h
        exact (ih h).imp fun o ho => List.mem_append_left _ ho
    | _ => exact (ih h).imp fun o ho => List.mem_append_left _ ho

theorem useless_grow {n m : Addr} {c d t u : Nat} (h : t ≤ u) (hu : Useless n c m d (r.hist t)) :
    Useless n c m d (r.hist u) := by
  obtain ⟨v, h1, -⟩ := r.segment h
  rw [h1]
  rcases hu with hu | hu | ⟨o, hu⟩
  · left
    rw [at_append]
    rcases hu with ⟨x, h2, h3⟩ | ⟨x, h2, h3⟩
    · exact .inl ⟨x, List.mem_append_left _ h2, h3⟩
    · exact .inr ⟨x, List.mem_append_left _ h2, h3⟩
  · right; left
    rw [at_append, tcp_app_append]
    rcases hu with ⟨x, hu⟩ | hu | ⟨x, hu⟩
    · exact .inl ⟨x, List.mem_append_left _ hu⟩
    · exact .inr (.inl (List.mem_append_left _ hu))
    · exact .inr (.inr ⟨x, List.mem_append_left _ hu⟩)
  · right; right
    rw [at_append]
    exact ⟨o, List.mem_append_left _ hu⟩

/-- What was written at one end arrives at the other end. -/
theorem run_carries {n m : Addr} {c d t : Nat} (hf : r.FairTo (At n (ArriveStep c))) (hn : own n = true)
    (hp : (r.state t).peer n c = some (m, d)) : ∃ u, t ≤ u ∧
      (written d (at_ m (r.hist t)) <+: arrived c (at_ n (r.hist u)) ∨ ∃ o, (.shut c, o) ∈ at_ n (r.hist u)) := by
  apply Classical.byContradiction
  intro hc
  have peer : ∀ u, t ≤ u → (r.state u).peer n c = some (m, d) := by
    intro u hu
    obtain ⟨v, h1, h2⟩ := r.segment hu
    exact peer_stays (r.exec t) h2 hp
  have pipe : ∀ u, t ≤ u → written d (at_ m (r.hist u)) =
      arrived c (at_ n (r.hist u)) ++ (r.state u).pipe m d := by
    intro u hu
    have hl := linked (r.exec u)
    have h1 := hl.pipe m d
    rw [hl.symm n c m d (peer u hu)] at h1
    exact h1
  have grow : ∀ u, t ≤ u → written d (at_ m (r.hist t)) <+: written d (at_ m (r.hist u)) := by
    intro u hu
    obtain ⟨v, h1, -⟩ := r.segment hu
    rw [h1, at_append, written, written, List.flatMap_append]
    exact List.prefix_append ..
  have h1 : ∀ u, t ≤ u → (arrived c (at_ n (r.hist u))).length < (written d (at_ m (r.hist t))).length ∧
      ((r.state u).nodes n).eof c = false := by
    intro u hu
    refine ⟨Nat.lt_of_not_le fun h => hc ⟨u, hu, .inl ?_⟩, ?_⟩
    · refine List.prefix_of_prefix_length_le (grow u hu) ?_ h
      rw [pipe u hu]
      exact List.prefix_append ..
    · cases he : ((r.state u).nodes n).eof c with
      | false => rfl
      | true => exact absurd ⟨u, hu, .inr (shut_mem he)⟩ hc
  obtain ⟨u, h2, h3⟩ := r.grows hf (N := t) (fun u => (arrived c (at_ n (r.hist u))).length)
    (fun u hu => by
      rw [r.hist_succ, at_append, arrived, arrived, List.flatMap_append, List.length_append]
      omega)
    (fun u hu hd => by
      obtain ⟨x, o, h2, rfl, b, hb, h3⟩ := hd
      rw [r.hist_succ, at_append, arrived, arrived, List.flatMap_append, List.length_append, h2]
      have := List.length_pos_iff.mpr hb
      simp [at_, h3]
      omega)
    (fun M => by
      refine ⟨max M t, by omega, ?_⟩
      have h2 := h1 (max M t) (by omega)
      have h3 := pipe (max M t) (by omega)
      have h4 := peer (max M t) (by omega)
      have h5 := (linked (r.exec (max M t))).addr n c m d h4
      have h6 : (r.state (max M t)).pipe m d ≠ [] := by
        intro h
        have h6 := (grow (max M t) (by omega)).length_le
        rw [h3, h, List.append_nil] at h6
        omega
      generalize hs : r.state (max M t) = s at h2 h4 h5 h6
      refine ⟨(n, .arrive c (s.pipe m d), 0), ?_⟩
      simp only [hs, At, ArriveStep, true_and]
      have h7 : possible own s n 0 (.arrive c (s.pipe m d)) = true := by
        simp [possible, h4]
      simp only [step, hn, h7, Bool.and_self, if_true, TcpNode.step, h2.2, and_true,
        if_pos h5.1]
      exact ⟨_, _, ⟨_, h6, rfl⟩, rfl⟩)
    (written d (at_ m (r.hist t))).length
  exact absurd (h1 u h2).1 (Nat.not_lt.mpr h3)

/-- The ends of connections in a run: they are pairs at any time, and stay so. -/
theorem run_pairs (r : Run own) : (∀ t, Pairs (r.state t).peer (r.hist t)) ∧
    ∀ t u n c w, t ≤ u → (r.state t).peer n c = some w → (r.state u).peer n c = some w := by
  constructor
  · intro t
    have hl := linked (r.exec t)
    refine ⟨hl.symm, fun n c m d h => ?_⟩
    obtain ⟨h1, h2⟩ := hl.addr n c m d h
    have h3 := (Ep.good_hist (TcpNode.part (each (r.exec t) n))).2.conns c h1
    rw [h2] at h3
    exact h3
  · intro t u n c w hu h
    obtain ⟨v, h1, h2⟩ := r.segment hu
    obtain ⟨m, d⟩ := w
    exact peer_stays (r.exec t) h2 h

/-- A connection accepted from another of the programs has its other end there. -/
theorem accept_paired {tr : Trace} {s : State} (e : Exec (step own) init tr s) {n m : Addr} {l c : Nat}
    (hm : own m = true) (h : (.accept l m, .opened c m) ∈ app (at_ n tr)) :
    ∃ d, s.peer n c = some (m, d) := by
  induction e with
  | nil => cases h
  | @snoc tr1 s1 s2 act ob e1 hs ih =>
    obtain ⟨n', x, d'⟩ := act
    by_cases h0 : (.accept l m, .opened c m) ∈ app (at_ n tr1)
    · exact (ih h0).imp fun d hd => peer_kept e1 hs hd
    · by_cases hn : n' = n
      · subst hn
        rw [at_same, tcp_app_append, List.mem_append] at h
        replace h := h.resolve_left h0
        obtain ⟨z, h1, h2⟩ := List.mem_filterMap.mp h
        cases List.mem_singleton.mp h1
        dsimp only at h2
        obtain ⟨-, hp, t, ht, rfl⟩ := step_inv hs
        dsimp only at hp ht ⊢
        cases TcpNode.move_of_step ht with
        | app x y o h3 h4 he =>
          cases h2
          simp only [carry, if_pos hm, link, set_apply]
          refine ⟨d', ?_⟩
          split
          · rename_i h5
            obtain ⟨rfl, rfl⟩ := h5
            rfl
          · simp
        | _ => simp at h2
      · rw [at_other _ _ _ _ hn] at h
        exact absurd h h0

theorem run_coupled (r : Run own) : Coupled r fun t => (r.state t).peer :=
  ⟨(run_pairs r).1, (run_pairs r).2, fun t _ _ _ _ hm h => accept_paired (r.exec t) hm h⟩

/-- From one end to the other. -/
theorem run_bytes (hf : Fair r) {n m : Addr} {c d t : Nat} (hr : Read r n) (hb : Settles r n)
    (hp : (r.state t).peer n c = some (m, d)) : ∃ u, t ≤ u ∧ (Useless n c m d (r.hist u) ∨
      ∃ p, ((accepted d (app (at_ m (r.hist t)))).map wireForm).flatten <+: p.flatten ∧
        p <+: reads c (app (at_ n (r.hist u))) ∧
        p.flatMap contents <+: settled c (app (at_ n (r.hist u)))) := by
  have hl := linked (r.exec t)
  have hm : own m = true := hl.owned n c m d hp
  have hn : own n = true := hl.owned m d n c (hl.symm n c m d hp)
  -- it is written
  obtain ⟨u, h1, h2⟩ := C127_sent (nodeRun r m) d ((fair_node hf hm).cmd d) ((fair_node hf hm).write d) t
  rw [nodeRun_hist, nodeRun_hist] at h2
  rcases h2 with h2 | h2
  · -- it arrives
    obtain ⟨v, h3, h4⟩ := run_carries (hf.arrive n c ⟨t, by rw [hp]; nofun⟩) hn
      ((run_pairs r).2 t u n c _ h1 hp)
    rcases h4 with h4 | h4
    · -- it is read
      have h5 : Shown (app ((nodeRun r n).hist v)) (.opened c m) := by
        rw [nodeRun_hist]
        exact ((run_pairs r).1 v).opened n c m d ((run_pairs r).2 t v n c _ (by omega) hp)
      obtain ⟨w, h6, h7⟩ := C127_received_partial (fair_node hf hn) (read_node hr) (settles_node hb) h5
      rw [nodeRun_hist, nodeRun_hist] at h7
      refine ⟨w, by omega, ?_⟩
      rcases h7 with h7 | ⟨p, h7, h8⟩
      · exact .inl (.inr (.inl h7))
      · exact .inr ⟨p, (h2.trans h4).trans h7, h8⟩
    · exact ⟨v, by omega, .inl (.inr (.inr h4))⟩
  · exact ⟨u, h1, .inl (.inl h2)⟩

/-- **C128.** Several programs connected by TCP, and strangers; nobody is passed over, and no handle of the
program at `n` stays full for ever. The connections between the programs come in pairs of ends. Everything that `send` and `send_to` accept at one end of a connection is read at the other end,
byte by byte, and all messages of what was read are handed to the handles of their interfaces or dropped,
unless the connection is broken. -/
theorem C128_bytes_partial (hf : Fair r) {n : Addr} (hr : Read r n) (hb : Settles r n) :
    ∃ pair : Nat → Addr → Nat → Option (Addr × Nat), Coupled r pair ∧
      ∀ t c m d, pair t n c = some (m, d) → ∃ u, t ≤ u ∧ (Useless n c m d (r.hist u) ∨
        ∃ p, ((accepted d (app (at_ m (r.hist t)))).map wireForm).flatten <+: p.flatten ∧
          p <+: reads c (app (at_ n (r.hist u))) ∧
          p.flatMap contents <+: settled c (app (at_ n (r.hist u)))) :=
  ⟨fun t => (r.state t).peer, run_coupled r, fun _ _ _ _ hp => run_bytes hf hr hb hp⟩

/-- From one end to the other, if every read ends between messages. -/
theorem run_whole (hf : Fair r) {n m : Addr} {c d t : Nat} (hr : Read r n) (hb : Settles r n)
    (hp : (r.state t).peer n c = some (m, d))
    (hpl : ∀ u, ∀ m₀ ∈ accepted d (app (at_ m (r.hist u))), Plain m₀)
    (hw : ∀ u, ∀ b ∈ reads c (app (at_ n (r.hist u))), Whole b) :
    ∃ u, t ≤ u ∧ (Useless n c m d (r.hist u) ∨
      accepted d (app (at_ m (r.hist t))) <+: settled c (app (at_ n (r.hist u)))) := by
  obtain ⟨u, h1, h2⟩ := run_bytes hf hr hb hp
  refine ⟨u, h1, h2.imp_right ?_⟩
  rintro ⟨p, h3, h4, h5⟩
  refine List.IsPrefix.trans ?_ h5
  -- what is heard was accepted
  have hlu := linked (r.exec u)
  have hpu := (run_pairs r).2 t u n c _ h1 hp
  have h6 : arrived c (at_ n (r.hist u)) <+: written d (at_ m (r.hist u)) := by
    have h6 := hlu.pipe m d
    rw [hlu.symm n c m d hpu] at h6
    exact ⟨_, h6.symm⟩
  have h7 := C87_messages_partial (each (r.exec u) m) (each (r.exec u) n) h6 (hpl u) (hw u)
  have h8 : p.flatMap contents <+: accepted d (app (at_ m (r.hist u))) := by
    refine List.IsPrefix.trans ?_ h7
    obtain ⟨q, h8⟩ := h4
    rw [Node.heard_eq, ← h8, List.flatMap_append]
    exact List.prefix_append ..
  have h9 : accepted d (app (at_ m (r.hist t))) <+: accepted d (app (at_ m (r.hist u))) := by
    obtain ⟨v, h9, -⟩ := r.segment h1
    rw [h9, at_append, tcp_app_append]
    generalize app (at_ m (r.hist t)) = x
    rw [accepted, accepted, List.filterMap_append]
    exact List.prefix_append ..
  -- and it is as long
  have h10 : p.flatten = (p.flatMap contents).flatMap frame := by
    have hq : ∀ b ∈ p, Whole b := fun b hb => hw u b (h4.subset hb)
    clear h3 h4 h5 h8
    induction p with
    | nil => rfl
    | cons b p ih =>
      obtain ⟨ms, h11, rfl⟩ := hq b (List.mem_cons_self ..)
      rw [List.flatten_cons, List.flatMap_cons, List.flatMap_append, ← ih fun b hb => hq b (List.mem_cons_of_mem _ hb),
        Rt.Ep.contents_eq (Frames.flatMap ms h11)]
  have h11 : ((accepted d (app (at_ m (r.hist t)))).map wireForm).flatten =
      (accepted d (app (at_ m (r.hist t)))).flatMap frame := by
    rw [List.flatMap_def]
    congr 1
    refine List.map_congr_left fun m₀ hm => ?_
    rw [wireForm, if_pos (hpl t m₀ hm).2]
  rw [h10, h11] at h3
  rcases List.prefix_or_prefix_of_prefix h9 h8 with h12 | ⟨q, h12⟩
  · exact h12
  · rw [← h12, List.flatMap_append] at h3
    cases q with
    | nil => rw [← h12, List.append_nil]
    | cons x q =>
      exfalso
      have h13 := h3.length_le
      simp only [List.length_append, List.flatMap_cons] at h13
      have h14 : 0 < (frame x).length := by rw [frame_length]; omega
      omega

/-- **C128**, the part about messages that holds: if moreover every read ends between messages, and the
messages sent at the other end can be expressed in the format, then every message that `send` or `send_to`
accepts at one end of a connection is handed to the handle of its interface at the other end or dropped, in
order and unchanged, unless the connection is broken. What is missing: reads that end inside a message
(`C121_false`). -/
theorem C128_messages_partial (hf : Fair r) {n : Addr} (hr : Read r n) (hb : Settles r n) :
    ∃ pair : Nat → Addr → Nat → Option (Addr × Nat), Coupled r pair ∧
      ∀ t c m d, pair t n c = some (m, d) →
        (∀ u, ∀ m₀ ∈ accepted d (app (at_ m (r.hist u))), Plain m₀) →
        (∀ u, ∀ b ∈ reads c (app (at_ n (r.hist u))), Whole b) →
        ∃ u, t ≤ u ∧ (Useless n c m d (r.hist u) ∨
          accepted d (app (at_ m (r.hist t))) <+: settled c (app (at_ n (r.hist u)))) := by
  exact ⟨fun t => (r.state t).peer, run_coupled r, fun _ _ _ _ hp hpl hw => run_whole hf hr hb hp hpl hw⟩

/-! ### Runs that come to rest -/

/-- A run that has come to rest is fair. -/
theorem net_rests_fair {tr : Trace} {s : State} (e : Exec (step own) init tr s)
    (h1 : ∀ n, own n = true → TcpNode.Resting (s.nodes n))
    (h2 : ∀ n c m d, s.peer n c = some (m, d) → s.pipe m d = []) :
    ∃ r : Run own, Fair r ∧ (∀ n, Settles r n) ∧
      ∀ t, tr.length ≤ t → r.state t = s ∧ r.hist t = tr := by
  obtain ⟨r, hr⟩ := Endless.of_exec e
  have key : ∀ P : Action → Prop, (∀ x, P x → step own s x = none) → r.FairTo P := by
    intro P hP hio
    obtain ⟨n, hn, a, o, s', h1, h2⟩ := hio tr.length
    rw [(hr n hn).1, hP a h1] at h2
    cases h2
  have rest : ∀ n, own n = true → ∀ P : TcpNode.Action → Prop, (∀ x, P x → TcpNode.GetsOn x) →
      r.FairTo (At n P) := by
    intro n hn P hP
    refine key _ ?_
    rintro ⟨n', x, d⟩ ⟨rfl, hx⟩
    have := h1 n' hn x (hP x hx)
    simp [step, this]
  refine ⟨r, ⟨fun n hn => rest n hn _ ?_, fun n hn l => rest n hn _ ?_, fun n hn l => rest n hn _ ?_,
    fun n hn l => rest n hn _ ?_, fun n hn l => rest n hn _ ?_, fun n hn l => rest n hn _ ?_,
    fun n hn l => rest n hn _ ?_, ?_⟩, fun n => ⟨tr.length, ?_⟩, fun n hn => ⟨(hr n hn).1, (hr n hn).2.1⟩⟩
  · rintro x ⟨ok, rfl⟩; exact .inl ⟨_, rfl, by simp⟩
  · rintro x rfl; exact .inl ⟨_, rfl, by simp⟩
  · rintro x rfl; exact .inl ⟨_, rfl, by simp⟩
  · rintro x rfl; exact .inl ⟨_, rfl, by simp⟩
  · rintro x ⟨k, hk, rfl⟩; exact .inr (.inr ⟨_, _, hk, rfl⟩)
  · rintro x ⟨k, rfl⟩; exact .inr (.inl ⟨_, _, rfl⟩)
  · rintro x rfl; exact .inl ⟨_, rfl, by simp⟩
  · rintro n c ⟨t, ht⟩
    refine key _ ?_
    rintro ⟨n', x, d⟩ ⟨rfl, b, hb, hx⟩
    dsimp only at hx ht ⊢
    subst hx
    obtain ⟨⟨m, d'⟩, hw⟩ := Option.ne_none_iff_exists'.mp ht
    have h3 := (run_pairs r).2 t (max t tr.length) n' c _ (by omega) hw
    rw [(hr _ (Nat.le_max_right ..)).1] at h3
    have h4 := h2 n' c m d' h3
    have h5 : possible own s n' d (.arrive c b) = false := by
      cases b with
      | nil => exact absurd rfl hb
      | cons x b => simp [possible, h3, h4]
    simp [step, h5]
  · rintro t ht ⟨a, o, h7, _⟩
    rw [(hr t ht).2.2] at h7
    cases h7

/-- Programs 5 and 6 can do nothing, and nothing is under way between them. -/
def Spec.TcpNet.calm (s : State) : Bool :=
  Spec.TcpNode.calm (s.nodes 5) && Spec.TcpNode.calm (s.nodes 6) &&
  (List.range (s.nodes 5).ep.connCount).all (fun c => (s.peer 5 c).all fun w => s.pipe w.1 w.2 == []) &&
  (List.range (s.nodes 6).ep.connCount).all (fun c => (s.peer 6 c).all fun w => s.pipe w.1 w.2 == [])

theorem net_calm {tr : Trace} {s : State} (e : Exec (step Spec.Net.two) init tr s)
    (h : Spec.TcpNet.calm s = true) :
    ∃ r : Run Spec.Net.two, Fair r ∧ (∀ n, Spec.Net.two n = true → Read r n) ∧ (∀ n, Settles r n) ∧
      ∀ t, tr.length ≤ t → r.state t = s ∧ r.hist t = tr := by
  simp only [Spec.TcpNet.calm, Bool.and_eq_true, List.all_eq_true, List.mem_range,
    Option.all_eq_true_iff_get, beq_iff_eq] at h
  obtain ⟨⟨⟨h5, h6⟩, p5⟩, p6⟩ := h
  have two : ∀ n, Spec.Net.two n = true → n = 5 ∨ n = 6 := by
    intro n hn
    simpa [Spec.Net.two] using hn
  have hl := linked e
  obtain ⟨r, h1, h2, h3⟩ := net_rests_fair e (fun n hn => by
      rcases two n hn with rfl | rfl
      · exact (tcp_calm (each e _) h5).1
      · exact (tcp_calm (each e _) h6).1) (fun n c m d hp => by
      have h1 := hl.addr n c m d hp
      have h2 := hl.owned m d n c (hl.symm n c m d hp)
      rcases two n h2 with rfl | rfl
      · have := p5 c h1.1 (by rw [hp]; rfl)
        simpa only [hp, Option.get_some] using this
      · have := p6 c h1.1 (by rw [hp]; rfl)
        simpa only [hp, Option.get_some] using this)
  have room : ∀ n, Spec.Net.two n = true → TcpNode.Room (s.nodes n) := by
    intro n hn
    rcases two n hn with rfl | rfl
    · exact (tcp_calm (each e _) h5).2
    · exact (tcp_calm (each e _) h6).2
  exact ⟨r, h1, fun n hn => ⟨fun k N => ⟨max N tr.length, Nat.le_max_left .., by
      rw [(h3 _ (Nat.le_max_right ..)).1]; exact (room n hn).1 k⟩,
    fun p N => ⟨max N tr.length, Nat.le_max_left .., by
      rw [(h3 _ (Nat.le_max_right ..)).1]; exact (room n hn).2 p⟩⟩, h2, h3⟩

/-- A run on which the connection goes on being of use. -/
theorem useful_always {tr : Trace} {s : State} {n m : Addr} {c d : Nat} (e : Exec (step own) init tr s)
    (h1 : Spec.TcpNode.errorless (at_ m tr) = true) (h2 : ((s.nodes n).ep.conns c).alive = true)
    (h3 : ∀ x ∈ at_ n tr, (match x.1 with | .shut _ => false | _ => true) = true) :
    ¬ Useless n c m d tr := by
  rintro (h | h | ⟨o, h⟩)
  · exact errorless_spec h1 d h
  · exact ((Ep.conn_open_iff (TcpNode.part (each e n)) c).mp h2).2 h
  · cases h3 _ h

/-- Two programs: what the one sends on the connection the other has accepted arrives in two pieces, is
read at once and handed out. Nobody is passed over and the handles are read. -/
example : ∃ r : Run Spec.Net.two, Fair r ∧ Read r 6 ∧ Settles r 6 ∧
    (∃ t l, (.accept l 5, .opened 0 5) ∈ app (at_ 6 (r.hist t))) ∧
    (∀ t, ¬ Useless 6 0 5 0 (r.hist t)) ∧
    (∀ t d, ∀ m₀ ∈ accepted d (app (at_ 5 (r.hist t))), Plain m₀) ∧
    (∀ t, ∀ b ∈ reads 0 (app (at_ 6 (r.hist t))), Whole b) ∧
    ∃ t, accepted 0 (app (at_ 5 (r.hist t))) = [Ep.msgA] := by
  obtain ⟨tr, s, e, h⟩ := exec_by (step := step Spec.Net.two) (s := init) (dialogue.take 28)
    (fun tr s => Spec.TcpNet.calm s && Spec.TcpNode.errorless (at_ 5 tr) &&
      allPlain (app (at_ 5 tr)) && decide (
      ((s.nodes 6).ep.conns 0).alive = true ∧
      (∀ x ∈ at_ 6 tr, (match x.1 with | .shut _ => false | _ => true) = true) ∧
      (.accept 0 5, .opened 0 5) ∈ app (at_ 6 tr) ∧
      accepted 0 (app (at_ 5 tr)) = [Ep.msgA] ∧ reads 0 (app (at_ 6 tr)) = [frame Ep.msgA]))
    (by decide +kernel)
  simp only [Bool.and_eq_true, decide_eq_true_eq] at h
  obtain ⟨⟨⟨g1, g2⟩, g3⟩, g4, g5, g6, g7, g8⟩ := h
  obtain ⟨r, r1, r2, r3, r4⟩ := net_calm e g1
  have hA : Plain Ep.msgA := ⟨by unfold Normal; decide, by decide⟩
  have sub : ∀ t, r.hist t <+: tr := by
    intro t
    obtain ⟨v, h1, -⟩ := r.segment (Nat.le_max_left t tr.length)
    rw [(r4 _ (Nat.le_max_right ..)).2] at h1
    exact ⟨v, h1.symm⟩
  refine ⟨r, r1, r2 6 rfl, r3 6, ⟨tr.length, 0, ?_⟩, fun t hu => ?_, fun t d m₀ hm => ?_, fun t b hb => ?_,
    tr.length, ?_⟩
  · rw [(r4 _ (Nat.le_refl _)).2]; exact g6
  · have := useless_grow (Nat.le_max_left t tr.length) hu
    rw [(r4 _ (Nat.le_max_right ..)).2] at this
    exact useful_always e g2 g4 g5 this
  · obtain ⟨v, hv⟩ := sub t
    simp only [accepted, List.mem_filterMap] at hm
    obtain ⟨⟨z, o⟩, hz, ho⟩ := hm
    cases o <;> simp only [reduceCtorEq] at ho
    split at ho
    · cases ho
      refine plain_of_all g3 z d _ ?_
      rw [← hv, at_append, tcp_app_append]
      rename_i heq
      subst heq
      exact List.mem_append_left _ hz
    · cases ho
  · obtain ⟨v, hv⟩ := sub t
    have : b ∈ reads 0 (app (at_ 6 tr)) := by
      rw [← hv, at_append, tcp_app_append, reads_append]
      exact List.mem_append_left _ hb
    rw [g8] at this
    cases List.mem_singleton.mp this
    exact ⟨[_], by simpa using hA, by simp⟩
  · rw [(r4 _ (Nat.le_refl _)).2]; exact g7

/-- **C128 fails as stated.** One program sends a message, which can be expressed in the format; nobody is
passed over, the handles have room, the connection stays. But the message arrives in two pieces and is read in
two pieces. It is never handed to the stub, nor dropped. -/
theorem C128_false : ∃ r : Run Spec.Net.two, Fair r ∧ Read r 6 ∧ Settles r 6 ∧
    (∃ t l, (.accept l 5, .opened 0 5) ∈ app (at_ 6 (r.hist t))) ∧
    (∀ t, ¬ Useless 6 0 5 0 (r.hist t)) ∧
    (∀ t, ∀ m₀ ∈ accepted 0 (app (at_ 5 (r.hist t))), Plain m₀) ∧
    ∃ t, accepted 0 (app (at_ 5 (r.hist t))) = [Ep.msgA] ∧
      ∀ u, Ep.msgA ∉ settled 0 (app (at_ 6 (r.hist u))) := by
  obtain ⟨tr, s, e, h⟩ := exec_by (step := step Spec.Net.two) (s := init)
    (dialogue.take 20 ++ [(5, .write 0 (.wrote 100), 0), (6, .arrive 0 ((frame Ep.msgA).take 16), 0),
      (6, .read 0 (.read 1400), 0), (6, .app (.route 0), 0), (6, .app (.route 0), 0),
      (6, .app (.route 0), 0), (6, .arrive 0 ((frame Ep.msgA).drop 16), 0),
      (6, .read 0 (.read 1400), 0)])
    (fun tr s => Spec.TcpNet.calm s && Spec.TcpNode.errorless (at_ 5 tr) && decide (
      ((s.nodes 6).ep.conns 0).alive = true ∧
      (∀ x ∈ at_ 6 tr, (match x.1 with | .shut _ => false | _ => true) = true) ∧
      (.accept 0 5, .opened 0 5) ∈ app (at_ 6 tr) ∧
      accepted 0 (app (at_ 5 tr)) = [Ep.msgA] ∧ Ep.msgA ∉ settled 0 (app (at_ 6 tr))))
    (by decide +kernel)
  simp only [Bool.and_eq_true, decide_eq_true_eq] at h
  obtain ⟨⟨g1, g2⟩, g4, g5, g6, g7, g8⟩ := h
  obtain ⟨r, r1, r2, r3, r4⟩ := net_calm e g1
  have hA : Plain Ep.msgA := ⟨by unfold Normal; decide, by decide⟩
  have sub : ∀ t, r.hist t <+: tr := by
    intro t
    obtain ⟨v, h1, -⟩ := r.segment (Nat.le_max_left t tr.length)
    rw [(r4 _ (Nat.le_max_right ..)).2] at h1
    exact ⟨v, h1.symm⟩
  refine ⟨r, r1, r2 6 rfl, r3 6, ⟨tr.length, 0, ?_⟩, fun t hu => ?_, fun t m₀ hm => ?_,
    tr.length, ?_, fun u hu => ?_⟩
  · rw [(r4 _ (Nat.le_refl _)).2]; exact g6
  · have := useless_grow (Nat.le_max_left t tr.length) hu
    rw [(r4 _ (Nat.le_max_right ..)).2] at this
    exact useful_always e g2 g4 g5 this
  · obtain ⟨v, hv⟩ := sub t
    have : m₀ ∈ accepted 0 (app (at_ 5 tr)) := by
      rw [← hv, at_append, tcp_app_append, accepted, List.filterMap_append]
      exact List.mem_append_left _ hm
    rw [g7] at this
    cases List.mem_singleton.mp this
    exact hA
  · rw [(r4 _ (Nat.le_refl _)).2]; exact g7
  · obtain ⟨v, hv⟩ := sub u
    apply g8
    rw [← hv, at_append, tcp_app_append, Rt.Ep.settled_append]
    exact List.mem_append_left _ hu

end

end Rsomeip
