import Verif.Lemmas.EpOpen
import Verif.Lemmas.Frames
import Verif.Spec.Endpoint

/-! # Where things come from -/

namespace Rsomeip.Rt.Ep

open Someip (InterfaceId)
open Spec Spec.Ep

theorem _root_.Rsomeip.Spec.Ep.Shown.mono {tr : Trace} {o : Obs} (h : Shown tr o) (u : Trace) : Shown (tr ++ u) o := by
  obtain ⟨x, h⟩ := h
  exact ⟨x, List.mem_append_left _ h⟩

theorem _root_.Rsomeip.Spec.Ep.Shown.last (tr : Trace) (a : Action) (o : Obs) : Shown (tr ++ [(a, o)]) o :=
  ⟨a, List.mem_append_right _ (List.mem_singleton_self _)⟩

theorem _root_.Rsomeip.Spec.Ep.Sent.mono {tr : Trace} {a : Addr} {m : Msg} (h : Sent tr a m) (u : Trace) :
    Sent (tr ++ u) a m := by
  obtain ⟨c, b, ms, h1, h2, h3, h4⟩ := h
  exact ⟨c, b, ms, Shown.mono h1 u, List.mem_append_left _ h2, h3, h4⟩

/-- The messages a connection has still to deal with. -/
def RecvPc.pending : RecvPc → List Msg
  | .wait => []
  | .route ms => ms
  | .sending _ m ms => m :: ms

/-- A packet that contains `m` was received from connection `c`. -/
def From (tr : Trace) (c : Nat) (m : Msg) : Prop :=
  ∃ b ms, (.packet c (.packet b), .none) ∈ tr ∧ Frames b ms ∧ m ∈ ms

theorem From.mono {tr : Trace} {c : Nat} {m : Msg} (h : From tr c m) (u : Trace) :
    From (tr ++ u) c m := by
  obtain ⟨b, ms, h2, h3, h4⟩ := h
  exact ⟨b, ms, List.mem_append_left _ h2, h3, h4⟩

/-- Everything in the state has a reason. -/
structure Hist (tr : Trace) (s : State) : Prop where
  conns : ∀ c, c < s.connCount → Shown tr (.opened c (s.conns c).addr)
  pending : ∀ c m, m ∈ (s.conns c).pc.pending → From tr c m
  queue : ∀ i m a, (m, a) ∈ (s.ifaces i).queue → InterfaceId.of m = (s.ifaces i).id ∧ Sent tr a m
  stubs : ∀ k, k < s.stubCount → (s.stubs k).iface < s.ifCount ∧
    Shown tr (.serving k (s.stubs k).iface (s.ifaces (s.stubs k).iface).id)
  proxies : ∀ p, p < s.proxyCount → (s.proxies p).iface < s.ifCount ∧
    Shown tr (.proxying p (s.proxies p).iface (s.ifaces (s.proxies p).iface).id (s.proxies p).remote)

theorem Hist.init : Hist [] init := by
  constructor <;> simp [Ep.init, RecvPc.pending]

section
variable {dg : Bool} {s s' : State} {a : Action} {o : Obs} {tr : Trace}

theorem alive_lt (hf : Fresh s) {c : Nat} (h : (s.conns c).alive = true) : c < s.connCount := by
  apply Decidable.byContradiction
  intro hn
  rw [hf.conns c (Nat.not_lt.mp hn)] at h
  cases h

theorem pc_lt (hf : Fresh s) {c : Nat} (h : (s.conns c).pc ≠ .wait) : c < s.connCount := by
  apply Decidable.byContradiction
  intro hn
  rw [hf.conns c (Nat.not_lt.mp hn)] at h
  exact h rfl

theorem stub_lt (hf : Fresh s) {k : Nat} (h : (s.stubs k).alive = true) : k < s.stubCount := by
  apply Decidable.byContradiction
  intro hn
  rw [hf.stubs k (Nat.not_lt.mp hn)] at h
  cases h

theorem proxy_lt (hf : Fresh s) {p : Nat} (h : (s.proxies p).alive = true) :
    p < s.proxyCount := by
  apply Decidable.byContradiction
  intro hn
  rw [hf.proxies p (Nat.not_lt.mp hn)] at h
  cases h

theorem Hist.step_conns (h : Hist tr s) (m : Move dg s a o s') (c : Nat) (hc : c < s'.connCount) :
    Shown (tr ++ [(a, o)]) (.opened c (s'.conns c).addr) := by
  have h1 := h.conns c
  have h2 := Shown.last tr a o
  have h3 : c < s.connCount → Shown (tr ++ [(a, o)]) (.opened c (s.conns c).addr) :=
    fun h => (h1 h).mono _
  clear h h1
  cases m <;> first | exact h3 hc | grind [upd, newConn, Conn.ended]

theorem Hist.step_pending (h : Hist tr s) (m : Move dg s a o s') (c : Nat) (x : Msg)
    (hc : x ∈ (s'.conns c).pc.pending) : From (tr ++ [(a, o)]) c x := by
  have h3 : x ∈ (s.conns c).pc.pending → From (tr ++ [(a, o)]) c x :=
    fun hx => (h.pending c x hx).mono _
  clear h
  cases m
  case packetRoute d r ms ha hw hr =>
    by_cases hd : c = d
    · subst hd
      dsimp only at hc
      rw [upd_same] at hc
      cases r with
      | packet b =>
        exact ⟨b, ms, List.mem_append_right _ (List.mem_singleton_self _),
          (receive_route b ms).mp hr, hc⟩
      | _ => simp [receive] at hr
    · dsimp only at hc
      rw [upd_ne _ _ hd] at hc
      exact h3 hc
  all_goals first | exact h3 hc | grind [upd, newConn, Conn.ended, RecvPc.pending]

theorem Hist.step_queue (h : Hist tr s) (hi : Ids s) (hf : Fresh s) (m : Move dg s a o s')
    (i : Nat) (x : Msg) (b : Addr) (hx : (x, b) ∈ (s'.ifaces i).queue) :
    InterfaceId.of x = (s'.ifaces i).id ∧ Sent (tr ++ [(a, o)]) b x := by
  have h3 : (x, b) ∈ (s.ifaces i).queue → InterfaceId.of x = (s.ifaces i).id ∧
    Sent (tr ++ [(a, o)]) b x := fun hx => ⟨(h.queue i x b hx).1, (h.queue i x b hx).2.mono _⟩
  cases m
  case put c j m ms hw hrx hq =>
    by_cases hd : i = j
    · subst hd
      dsimp only at hx ⊢
      rw [upd_same] at hx ⊢
      rcases List.mem_append.mp hx with hx | hx
      · exact h3 hx
      · cases List.mem_singleton.mp hx
        refine ⟨(hi.shared _ _ (hi.sending _ _ _ _ hw)).2.symm, ?_⟩
        obtain ⟨b, ms', h4, h5, h6⟩ := (h.pending c x (by rw [hw]; exact List.mem_cons_self ..))
        exact ⟨c, b, ms', (h.conns c (pc_lt hf (by rw [hw]; nofun))).mono _,
          List.mem_append_left _ h4, h5, h6⟩
    · dsimp only at hx ⊢
      rw [upd_ne _ _ hd] at hx ⊢
      exact h3 hx
  all_goals clear h; first | exact h3 hx | grind [upd, Iface.drop]

theorem Hist.step_stubs (h : Hist tr s) (hi : Ids s) (m : Move dg s a o s') (k : Nat)
    (hk : k < s'.stubCount) : (s'.stubs k).iface < s'.ifCount ∧
    Shown (tr ++ [(a, o)]) (.serving k (s'.stubs k).iface (s'.ifaces (s'.stubs k).iface).id) := by
  have h1 : k < s.stubCount → (s.stubs k).iface < s.ifCount ∧
    Shown (tr ++ [(a, o)]) (.serving k (s.stubs k).iface (s.ifaces (s.stubs k).iface).id) :=
    fun hk => ⟨(h.stubs k hk).1, (h.stubs k hk).2.mono _⟩
  have h2 := @Move.id dg s s' a o m (s.stubs k).iface
  have h4 := Shown.last tr a o
  have h5 := answer_cases s
  have h6 := refuse_cases s
  have h7 := hi.serveTake
  have h8 : ∀ id l i, s.pc = .serveTake id l i → i < s.ifCount :=
    fun id l i h => hi.held i (.inl (by rw [h]; simp [EpPc.holds]))
  clear h hi
  cases m <;> first | exact h1 hk | grind [upd, stubAt_apply]

theorem Hist.step_proxies (h : Hist tr s) (hi : Ids s) (m : Move dg s a o s') (p : Nat)
    (hp : p < s'.proxyCount) : (s'.proxies p).iface < s'.ifCount ∧
    Shown (tr ++ [(a, o)]) (.proxying p (s'.proxies p).iface (s'.ifaces (s'.proxies p).iface).id
      (s'.proxies p).remote) := by
  have h1 : p < s.proxyCount → (s.proxies p).iface < s.ifCount ∧
    Shown (tr ++ [(a, o)]) (.proxying p (s.proxies p).iface (s.ifaces (s.proxies p).iface).id
      (s.proxies p).remote) :=
    fun hk => ⟨(h.proxies p hk).1, (h.proxies p hk).2.mono _⟩
  have h2 := @Move.id dg s s' a o m (s.proxies p).iface
  have h4 := Shown.last tr a o
  have h7 := hi.proxyTake
  have h8 : ∀ id a c i, s.pc = .proxyTake id a c i → i < s.ifCount :=
    fun id a c i h => hi.held i (.inl (by rw [h]; simp [EpPc.holds]))
  clear h hi
  cases m <;> first | exact h1 hp | grind [upd]

theorem Hist.step (h : Hist tr s) (hg : Good s) (m : Move dg s a o s') :
    Hist (tr ++ [(a, o)]) s' :=
  ⟨h.step_conns m, h.step_pending m, h.step_queue hg.ids hg.fresh m, h.step_stubs hg.ids m,
    h.step_proxies hg.ids m⟩

end

theorem good_hist {dg : Bool} {s : State} {tr : Trace} (e : Exec (step dg) init tr s) :
    Good s ∧ Hist tr s := by
  induction e with
  | nil => exact ⟨.init, .init⟩
  | snoc _ hs ih => exact ⟨ih.1.step (move_of_step hs), ih.2.step ih.1 (move_of_step hs)⟩

end Rsomeip.Rt.Ep
