import Verif.Lemmas.EpOwn
import Verif.Lemmas.EpRun

/-! # Channels that nobody will put anything into -/

namespace Rsomeip.Rt.Ep

open Someip (InterfaceId)
open Spec Spec.Ep

/-- Every proxy has its own channel. -/
structure Only (s : State) : Prop where
  proxies : ∀ p p', p < s.proxyCount → p' < s.proxyCount → (s.proxies p).iface = (s.proxies p').iface → p = p'
  both : ∀ k p, k < s.stubCount → p < s.proxyCount → (s.stubs k).iface ≠ (s.proxies p).iface
  pc : ∀ p i, p < s.proxyCount → s.pc.holds i = true → (s.proxies p).iface ≠ i

section
variable {dg : Bool} {s s' : State} {a : Action} {o : Obs}

theorem Only.step_proxies (h : Only s) (m : Move dg s a o s') (p p' : Nat) (hp : p < s'.proxyCount)
    (hp' : p' < s'.proxyCount) (he : (s'.proxies p).iface = (s'.proxies p').iface) : p = p' := by
  have h1 := h.proxies p p'
  have h2 := h.pc
  have hq := holds_proxyTake
  clear h
  cases m <;> first | exact h1 hp hp' he | grind [upd]

theorem Only.step_both (h : Only s) (ho : Once s) (m : Move dg s a o s') (k p : Nat) (hk : k < s'.stubCount)
    (hp : p < s'.proxyCount) : (s'.stubs k).iface ≠ (s'.proxies p).iface := by
  have h1 := h.both k p
  have h2 := h.pc
  have h5 := ho.pc
  have h3 := answer_cases s
  have h4 := refuse_cases s
  have hq := holds_proxyTake
  have hs := holds_serveTake
  clear h ho
  cases m <;> first | exact h1 hk hp | grind [upd, stubAt_apply]

theorem Only.step_pc (h : Only s) {tr : Trace} (hh : Hist tr s) (m : Move dg s a o s') (p i : Nat)
    (hp : p < s'.proxyCount) (hi : s'.pc.holds i = true) : (s'.proxies p).iface ≠ i := by
  have h1 := h.pc p i
  have h2 := fun p hp => (hh.proxies p hp).1
  clear h hh
  cases m <;> first | exact h1 hp hi | grind [upd, EpPc.holds]

theorem only_one {tr : Trace} (e : Exec (Ep.step dg) Ep.init tr s) : Only s := by
  induction e with
  | nil => constructor <;> simp [Ep.init]
  | snoc e hs ih =>
    exact ⟨ih.step_proxies (move_of_step hs), ih.step_both (once e) (move_of_step hs),
      ih.step_pc (good_hist e).2 (move_of_step hs)⟩

/-- Nobody owns a sender of channel `i`, apart from a connection that is using it. -/
structure Orphan (i : Nat) (s : State) : Prop where
  lt : i < s.ifCount
  pc : s.pc.holds i = false
  liss : ∀ l, (s.liss l).holds i = false
  conns : ∀ c, ¬ (s.conns c).owns i

/-- A connection is putting a message into channel `i`. -/
def Filling (i : Nat) (s : State) : Prop := ∃ c m ms, (s.conns c).pc = .sending i m ms

theorem Orphan.held (h : Orphan i s) : Held s i ↔ Filling i s := by
  constructor
  · rintro (h1 | ⟨c, h1⟩ | ⟨l, h1⟩)
    · rw [h.pc] at h1; cases h1
    · rcases (Conn.holds_owns ..).mp h1 with h2 | ⟨m, ms, h2⟩
      · exact absurd h2 (h.conns c)
      · exact ⟨c, m, ms, h2⟩
    · rw [h.liss] at h1; cases h1
  · rintro ⟨c, m, ms, h1⟩
    exact .inr (.inl ⟨c, (Conn.holds_owns ..).mpr (.inr ⟨m, ms, h1⟩)⟩)

theorem Orphan.step {i : Nat} (h : Orphan i s) (m : Move dg s a o s') : Orphan i s' := by
  obtain ⟨h1, h2, h3, h4⟩ := h
  refine ⟨Nat.lt_of_lt_of_le h1 m.ifCount, ?_, fun l => ?_, fun c => ?_⟩
  · cases m <;> first | exact h2 | grind [EpPc.holds]
  · refine Bool.eq_false_iff.mpr fun hh => ?_
    have h3 := h3 l
    have hp := holds_serveTake
    rw [← Bool.not_eq_true] at h3 h2
    rw [Lis.holds_iff] at hh h3
    cases m <;> first | exact h3 hh |
      grind [upd, newLis, deadLis, Map.empty, Map.mem_insert]
  · intro hh
    have h4 := h4 c
    have hp := holds_proxyTake
    rw [← Bool.not_eq_true] at h2
    rw [Conn.owns] at hh h4
    cases m <;> first | exact h4 hh |
      grind [upd, newConn, Conn.ended, Map.empty, Map.mem_insert]

/-- What may still come out of channel `i`. -/
noncomputable def rest (i : Nat) (s : State) : Nat :=
  (s.ifaces i).queue.length + open Classical in if Filling i s then 1 else 0

theorem Orphan.filling {i : Nat} (h : Orphan i s) (hi : Ids s) (hf : Fresh s) (m : Move dg s a o s')
    (hb : Filling i s') : Filling i s := by
  have h1 := hi.sending
  have h2 := hi.shared
  have h3 := @ifLocked_false s hf
  have h4 := ifStrong_iff hf i
  rw [h.held] at h4
  obtain ⟨c, x, ms, hb⟩ := hb
  unfold Filling at h4 ⊢
  clear h hi
  cases m <;> first | exact ⟨c, x, ms, hb⟩ | grind [upd, newConn, Conn.ended]

theorem Orphan.queue {i : Nat} (h : Orphan i s) (m : Move dg s a o s') :
    (s'.ifaces i).queue.length ≤ (s.ifaces i).queue.length ∨
      ∃ c x ms, (s.conns c).pc = .sending i x ms ∧ (s'.conns c).pc = .route ms ∧
        (∀ d, d ≠ c → s'.conns d = s.conns d) ∧ (s'.ifaces i).queue.length = (s.ifaces i).queue.length + 1 := by
  have h1 := h.lt
  clear h
  cases m <;> first | exact .inl (Nat.le_refl _) | grind [upd, Iface.drop]

theorem Orphan.rest_le {i : Nat} (h : Orphan i s) (hi : Ids s) (hf : Fresh s) (m : Move dg s a o s') :
    rest i s' ≤ rest i s := by
  unfold rest
  rcases h.queue m with h1 | ⟨c, x, ms, h1, h2, h3, h4⟩
  · have := h.filling hi hf m
    split <;> split <;> first | omega | tauto
  · have h5 : ¬ Filling i s' := by
      rintro ⟨d, y, ns, h5⟩
      by_cases hd : d = c
      · rw [hd, h2] at h5; cases h5
      · rw [h3 d hd] at h5
        refine hd (hi.lock d c i i y x ns ms h5 h1 ?_)
        rw [← (hi.shared _ i (hi.sending d i y ns h5)).2, ← (hi.shared _ i (hi.sending c i x ms h1)).2]
    rw [if_neg h5, if_pos ⟨c, x, ms, h1⟩]
    omega

theorem Orphan.same {i c : Nat} {x : Msg} {ms : List Msg} (h : Orphan i s) (hi : Ids s) (hf : Fresh s)
    (m : Move dg s a o s') (hb : (s'.conns c).pc = .sending i x ms) : (s.conns c).pc = .sending i x ms := by
  have h1 := hi.sending
  have h2 := hi.shared
  have h3 := @ifLocked_false s hf
  have h4 := ifStrong_iff hf i
  rw [h.held] at h4
  unfold Filling at h4
  clear h hi
  cases m <;> first | exact hb | grind [upd, newConn, Conn.ended]

theorem orphan_proxy {tr : Trace} (e : Exec (Ep.step dg) Ep.init tr s) {p : Nat} (hp : p < s.proxyCount)
    (ha : (s.conns (s.proxies p).conn).alive = false) : Orphan (s.proxies p).iface s := by
  have h1 := only_one e
  have h2 := own e
  refine ⟨((good_hist e).2.proxies p hp).1, Bool.eq_false_iff.mpr fun h => h1.pc p _ hp h rfl,
    fun l => Bool.eq_false_iff.mpr fun h => ?_, fun c h => ?_⟩
  · obtain ⟨k, h3, h4, -⟩ := h2.liss l _ h
    exact h1.both k p h3 hp h4
  · obtain ⟨q, h3, h4, h5⟩ := h2.conns c _ h
    rw [h1.proxies q p h3 hp h4] at h5
    obtain ⟨h6, -, h7, -⟩ := (good_hist e).1.ended.conns c (h5 ▸ ha)
    rw [Conn.owns, h6, h7] at h
    simp [Map.empty] at h

theorem orphan_stub {tr : Trace} (e : Exec (Ep.step dg) Ep.init tr s) {k : Nat} (hk : k < s.stubCount)
    (ha : (s.liss (s.stubs k).lis).alive = false) : Orphan (s.stubs k).iface s := by
  have h1 := only_one e
  have h2 := own e
  refine ⟨((good_hist e).2.stubs k hk).1, Bool.eq_false_iff.mpr fun h => (once e).pc k _ hk h rfl,
    fun l => Bool.eq_false_iff.mpr fun h => ?_, fun c h => ?_⟩
  · obtain ⟨j, h3, h4, h5⟩ := h2.liss l _ h
    rw [(once e).stubs j k h3 hk h4] at h5
    obtain ⟨h6, h7, -⟩ := (good_hist e).1.ended.liss l (h5 ▸ ha)
    rw [Lis.holds_iff, h6, h7] at h
    simp [Map.empty] at h
  · obtain ⟨q, h3, h4, -⟩ := h2.conns c _ h
    exact h1.both k q hk h3 h4.symm

end

variable {dg : Bool} {r : Run dg}

/-- In the long run, there is something in the channel or nobody can put anything into it. -/
theorem drained {i N : Nat} (hf : ∀ c, r.FairTo (· = .route c)) (h : Orphan i (r.state N))
    (hx : ∀ n, N ≤ n → ((r.state n).ifaces i).rx = true) :
    ∃ M, N ≤ M ∧ ∀ n, M ≤ n → ((r.state n).ifaces i).queue ≠ [] ∨ (r.state n).ifStrong i = false := by
  have ho : ∀ n, N ≤ n → Orphan i (r.state n) :=
    r.stays h fun _ _ _ _ _ _ _ _ h m => h.step m
  have good := fun n => (good_hist (r.exec n)).1
  have hs : ∀ n, N ≤ n → ¬ Filling i (r.state n) → (r.state n).ifStrong i = false := by
    intro n hn h
    rw [← (ho n hn).held, ← ifStrong_iff (good n).fresh] at h
    exact Bool.eq_false_iff.mpr h
  by_cases hq : ∃ M, N ≤ M ∧ ¬ Filling i (r.state M)
  · obtain ⟨M, hM, hq⟩ := hq
    refine ⟨M, hM, fun n hn => .inr (hs n (by omega) ?_)⟩
    induction n, hn using Nat.le_induction with
    | base => exact hq
    | succ n hn ih =>
      rcases r.move n with ⟨-, h1⟩ | ⟨a, o, -, h1⟩
      · rw [h1]; exact ih
      · exact fun h2 => ih ((ho n (by omega)).filling (good n).ids (good n).fresh (move_of_step h1) h2)
  · have hall : ∀ n, N ≤ n → Filling i (r.state n) := fun n hn => Classical.byContradiction fun h => hq ⟨n, hn, h⟩
    have back : ∀ n, N ≤ n → ∀ c x ms, ((r.state n).conns c).pc = .sending i x ms →
        ((r.state N).conns c).pc = .sending i x ms := by
      intro n hn
      induction n, hn using Nat.le_induction with
      | base => exact fun _ _ _ h => h
      | succ n hn ih =>
        intro c x ms h1
        rcases r.move n with ⟨-, h2⟩ | ⟨a, o, -, h2⟩
        · rw [h2] at h1; exact ih c x ms h1
        · exact ih c x ms ((ho n hn).same (good n).ids (good n).fresh (move_of_step h2) h1)
    obtain ⟨c, x, ms, hc⟩ := hall N (Nat.le_refl _)
    have stuck : ∀ n, N ≤ n → ((r.state n).conns c).pc = .sending i x ms := by
      intro n hn
      obtain ⟨d, y, ns, h1⟩ := hall n hn
      have h2 := back n hn d y ns h1
      have h3 : d = c := by
        have hi := (good N).ids
        refine hi.lock d c i i y x ns ms h2 hc ?_
        rw [← (hi.shared _ i (hi.sending d i y ns h2)).2, ← (hi.shared _ i (hi.sending c i x ms hc)).2]
      subst h3
      rw [hc] at h2
      rw [h1, h2]
    obtain ⟨M, h1, h2⟩ := (hf c).off (N := N) (by
      rintro n hn ⟨a, o, h1, rfl⟩
      rcases r.move n with ⟨h2, _⟩ | ⟨a, o', h2, h3⟩
      · rw [h1] at h2; cases h2
      · rw [h1] at h2
        cases h2
        have h4 := stuck n hn
        have h5 := stuck (n + 1) (by omega)
        generalize r.state (n + 1) = s' at h3 h5
        cases move_of_step h3 <;> simp_all [upd])
    refine ⟨M, h1, fun n hn => .inl fun h3 => h2 n hn ?_⟩
    exact ⟨_, _, _, rfl, step_of_move (.put c i x ms (stuck n (by omega)) (hx n (by omega)) (by
      rw [h3]; simp [ifCap]))⟩

/-- If a reader of the channel goes on reading, it is told. -/
theorem told {i N : Nat} {P : Action → Prop} (hf : ∀ c, r.FairTo (· = .route c)) (hg : r.FairTo P)
    (h : Orphan i (r.state N)) (hx : ∀ n, N ≤ n → ((r.state n).ifaces i).rx = true)
    (he : ∀ M, ∃ n, M ≤ n ∧ (((r.state n).ifaces i).queue ≠ [] ∨ (r.state n).ifStrong i = false →
      Enabled dg (r.state n) P))
    (hd : ∀ n a o s s', N ≤ n → r.act n = some (a, o) → P a → r.state n = s → Move dg s a o s' →
      (s'.conns = s.conns ∧ (s'.ifaces i).queue.length < (s.ifaces i).queue.length)) : False := by
  have ho : ∀ n, N ≤ n → Orphan i (r.state n) :=
    r.stays h fun _ _ _ _ _ _ _ _ h m => h.step m
  have good := fun n => (good_hist (r.exec n)).1
  have mono : ∀ n, N ≤ n → rest i (r.state (n + 1)) ≤ rest i (r.state n) := by
    intro n hn
    rcases r.move n with ⟨-, h1⟩ | ⟨a, o, -, h1⟩
    · rw [h1]
    · exact (ho n hn).rest_le (good n).ids (good n).fresh (move_of_step h1)
  obtain ⟨M, hM, hr⟩ := drained hf h hx
  have inf := hg (fun K => by
    obtain ⟨n, h1, h2⟩ := he (max K M)
    exact ⟨n, by omega, h2 (hr n (by omega))⟩)
  have down : ∀ K, ∃ n, N ≤ n ∧ rest i (r.state n) + K ≤ rest i (r.state N) := by
    intro K
    induction K with
    | zero => exact ⟨N, Nat.le_refl _, Nat.le_refl _⟩
    | succ K ih =>
      obtain ⟨n, h1, h2⟩ := ih
      obtain ⟨m, h3, a, o, h4, h5⟩ := inf n
      have h6 : ∀ m, n ≤ m → rest i (r.state m) ≤ rest i (r.state n) := by
        intro m hm
        induction m, hm using Nat.le_induction with
        | base => exact Nat.le_refl _
        | succ m hm ih => exact Nat.le_trans (mono m (by omega)) ih
      have h7 := h6 m h3
      rcases r.move m with ⟨h8, _⟩ | ⟨a', o', h8, h9⟩
      · rw [h4] at h8; cases h8
      · rw [h4] at h8
        cases h8
        obtain ⟨h10, h11⟩ := hd m a o _ _ (by omega) h4 h5 rfl (move_of_step h9)
        refine ⟨m + 1, by omega, ?_⟩
        have h12 : Filling i (r.state (m + 1)) ↔ Filling i (r.state m) := by
          unfold Filling; rw [h10]
        have : rest i (r.state (m + 1)) < rest i (r.state m) := by
          unfold rest
          split <;> split <;> first | omega | tauto
        omega
  obtain ⟨n, -, h1⟩ := down (rest i (r.state N) + 1)
  omega

end Rsomeip.Rt.Ep
