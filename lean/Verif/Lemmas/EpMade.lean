import Verif.Lemmas.EpPipe

/-! # Handles and their channels -/

namespace Rsomeip.Rt.Ep

open Someip (InterfaceId)
open Spec Spec.Ep

theorem shown_snoc {tr : Trace} {a : Action} {o x : Obs} (h : Shown (tr ++ [(a, o)]) x) :
    Shown tr x ∨ x = o := by
  obtain ⟨y, h⟩ := h
  rcases List.mem_append.mp h with h | h
  · exact .inl ⟨y, h⟩
  · cases List.mem_singleton.mp h; exact .inr rfl

/-- What was handed out is there. -/
structure Made (tr : Trace) (s : State) : Prop where
  stub : ∀ k i id, Shown tr (.serving k i id) →
    k < s.stubCount ∧ (s.stubs k).iface = i ∧ i < s.ifCount ∧ (s.ifaces i).id = id
  proxy : ∀ p i id r, Shown tr (.proxying p i id r) →
    p < s.proxyCount ∧ (s.proxies p).iface = i ∧ (s.proxies p).remote = r ∧ i < s.ifCount ∧
      (s.ifaces i).id = id

theorem Made.init : Made [] init := by
  constructor <;> simp [Shown]

section
variable {dg : Bool} {s s' : State} {a : Action} {o : Obs} {tr : Trace}

theorem Made.step_stub (h : Made tr s) (hi : Ids s) (m : Move dg s a o s') (k i : Nat)
    (id : InterfaceId) (hs : Shown (tr ++ [(a, o)]) (.serving k i id)) :
    k < s'.stubCount ∧ (s'.stubs k).iface = i ∧ i < s'.ifCount ∧ (s'.ifaces i).id = id := by
  have h1 := h.stub k i id
  have h2 := shown_snoc hs
  have h3 := @Move.id dg s s' a o m i
  have h5 := answer_cases s
  have h6 := refuse_cases s
  have h7 := hi.serveTake
  have h8 : ∀ id l i, s.pc = .serveTake id l i → i < s.ifCount :=
    fun id l i h => hi.held i (.inl (by rw [h]; simp [EpPc.holds]))
  clear h hi hs
  cases m <;> grind [upd, stubAt_apply]

theorem Made.step_proxy (h : Made tr s) (hi : Ids s) (m : Move dg s a o s') (p i : Nat)
    (id : InterfaceId) (r : Addr) (hs : Shown (tr ++ [(a, o)]) (.proxying p i id r)) :
    p < s'.proxyCount ∧ (s'.proxies p).iface = i ∧ (s'.proxies p).remote = r ∧ i < s'.ifCount ∧
      (s'.ifaces i).id = id := by
  have h1 := h.proxy p i id r
  have h2 := shown_snoc hs
  have h3 := @Move.id dg s s' a o m i
  have h7 := hi.proxyTake
  have h8 : ∀ id a c i, s.pc = .proxyTake id a c i → i < s.ifCount :=
    fun id a c i h => hi.held i (.inl (by rw [h]; simp [EpPc.holds]))
  clear h hi hs
  cases m <;> grind [upd]

end

theorem made {dg : Bool} {s : State} {tr : Trace} (e : Exec (step dg) init tr s) : Made tr s := by
  induction e with
  | nil => exact .init
  | snoc e hs ih =>
    have hi := (good_hist e).1.ids
    exact ⟨ih.step_stub hi (move_of_step hs), ih.step_proxy hi (move_of_step hs)⟩

/-! ### While a channel is open -/

section
variable {dg : Bool} {s s' : State} {a : Action} {o : Obs} {tr : Trace}

/-- The endpoint task is past the check for interface `id`. -/
def EpPc.past (pc : EpPc) (id : InterfaceId) : Prop :=
  pc.making id ∨ (∃ l i, pc = .serveTake id l i) ∨ ∃ a c i, pc = .proxyTake id a c i

theorem Open.back (hg : Good s) (e : Exec (step dg) s tr s') {i : Nat} (hi : i < s.ifCount)
    (ho : Open s' i) : Open s i ∧ i < s'.ifCount ∧ (s'.ifaces i).id = (s.ifaces i).id := by
  induction e with
  | nil => exact ⟨ho, hi, rfl⟩
  | @snoc tr s₁ s₂ a o e hs ih =>
    have m := move_of_step hs
    have hlt : i < s₁.ifCount ∧ (s₁.ifaces i).id = (s.ifaces i).id := by
      clear ih ho m hs
      induction e with
      | nil => exact ⟨hi, rfl⟩
      | snoc e hs ih =>
        have := (move_of_step hs).id ih.1
        exact ⟨this.1, this.2.trans ih.2⟩
    rcases m.open_new (hg.exec e).fresh ho with h | h
    · have := m.id hlt.1
      exact ⟨(ih h).1, this.1, this.2.trans hlt.2⟩
    · omega

theorem Move.while_open (hg : Good s) (m : Move dg s a o s') {i : Nat} (ho : Open s i)
    (hp : ¬ s.pc.past (s.ifaces i).id) :
    ¬ s'.pc.past (s.ifaces i).id ∧
      (Answers (s.ifaces i).id o → Refused (s.ifaces i).id o) := by
  have h1 := hg.opens.shared i ho
  have h2 := (ifStrong_iff hg.fresh i).mpr ho.2
  generalize hid : (s.ifaces i).id = id at *
  clear hg ho
  constructor
  · cases m <;> first | exact hp | grind [EpPc.past, EpPc.making, State.known]
  · cases m <;> grind [EpPc.past, EpPc.making, Answers, Refused]

theorem exec_while_open (hg : Good s) (e : Exec (step dg) s tr s') {i : Nat} (hi : i < s.ifCount)
    (ho : Open s' i) (hp : ¬ s.pc.past (s.ifaces i).id) :
    ¬ s'.pc.past (s.ifaces i).id ∧
      ∀ x ∈ tr, Answers (s.ifaces i).id x.2 → Refused (s.ifaces i).id x.2 := by
  induction e with
  | nil => exact ⟨hp, by simp⟩
  | @snoc tr s₁ s₂ a o e hs ih =>
    have m := move_of_step hs
    have hg₁ := hg.exec e
    have ho₁ : Open s₁ i := (Open.back hg₁ (.snoc .nil hs)
      (by
        clear ih ho m hs hg₁
        induction e with
        | nil => exact hi
        | snoc e hs ih => exact ((move_of_step hs).id ih).1) ho).1
    obtain ⟨h1, h2, h3⟩ := Open.back hg e hi ho₁
    obtain ⟨h4, h5⟩ := ih ho₁
    rw [← h3] at h4 ⊢
    obtain ⟨h6, h7⟩ := m.while_open hg₁ ho₁ h4
    refine ⟨h6, fun x hx => ?_⟩
    rcases List.mem_append.mp hx with hx | hx
    · rw [h3]; exact h5 x hx
    · cases List.mem_singleton.mp hx; exact h7

/-- Messages are put into open channels only. -/
theorem routed_open {i : Nat} {m : Msg} {b : Addr} (h : Move dg s a (.routed i m b) s') :
    Open s i := by
  generalize hx : Obs.routed i m b = x at h
  cases h
  case put c j m ms hw hrx hq =>
    cases hx
    exact ⟨hrx, .inr (.inl ⟨c, (Conn.holds_iff _ _).mpr (.inr (.inr ⟨_, _, hw⟩))⟩)⟩
  case proxyRecv => split at hx <;> cases hx
  all_goals cases hx

end

/-- A channel that was not handed out yet belongs to no stub and no proxy. -/
theorem task_new {dg : Bool} {s : State} {tr : Trace} (e : Exec (step dg) init tr s) (j : Nat)
    (h : s.pc.holds j = true) :
    (∀ k, k < s.stubCount → (s.stubs k).iface ≠ j) ∧
      ∀ p, p < s.proxyCount → (s.proxies p).iface ≠ j := by
  induction e with
  | nil => simp [init]
  | @snoc tr s s' a o e hs ih =>
    have m := move_of_step hs
    obtain ⟨hg, hh⟩ := good_hist e
    have h1 : ∀ k, k < s.stubCount → (s.stubs k).iface < s.ifCount := fun k hk => (hh.stubs k hk).1
    have h2 : ∀ p, p < s.proxyCount → (s.proxies p).iface < s.ifCount :=
      fun k hk => (hh.proxies k hk).1
    have h9 := answer_cases s
    have h10 := refuse_cases s
    clear hs hh hg
    constructor
    · cases m <;> first | exact (ih h).1 | grind [upd, stubAt_apply, EpPc.holds]
    · cases m <;> first | exact (ih h).2 | grind [upd, EpPc.holds]

/-- A channel is handed out by the task that holds it, and is open then. -/
theorem created_open {dg : Bool} {s s' : State} {a : Action} {o : Obs} (hg : Good s)
    (m : Move dg s a o s') {i : Nat} {id : InterfaceId} (hc : Created i id o) :
    s.pc.holds i = true ∧ Open s' i := by
  have h1 := hg.readers.rx .task i
  have h2 := hg.fresh
  cases m <;> rcases hc with ⟨k, h⟩ | ⟨p, r, h⟩ <;> first | cases h | (split at h <;> cases h) | skip
  · rename_i l ha hq hpc
    have h3 : s.pc.holds i = true := by rw [hpc]; simp [EpPc.holds]
    refine ⟨h3, (h1 h3).2, .inr (.inr ⟨l, (Lis.holds_iff _ _).mpr (.inr ⟨id, ?_⟩)⟩)⟩
    dsimp only
    rw [upd_same]
    exact List.mem_append_right _ (List.mem_singleton_self _)
  · rename_i c ha hq hpc
    have h3 : s.pc.holds i = true := by rw [hpc]; simp [EpPc.holds]
    refine ⟨h3, (h1 h3).2, .inr (.inl ⟨c, (Conn.holds_iff _ _).mpr (.inr (.inl ⟨id, ?_⟩))⟩)⟩
    dsimp only
    rw [upd_same]
    exact List.mem_append_right _ (List.mem_singleton_self _)

/-- Once there are two handles for an interface, the first one's channel is not open. -/
theorem second_closes {dg : Bool} {tr tr' tr'' : Trace} {x y : Action} {o o' : Obs} {s : State}
    {i j : Nat} {id : InterfaceId}
    (e : Exec (step dg) init (tr ++ [(x, o)] ++ tr' ++ [(y, o')] ++ tr'') s)
    (hc : Created i id o) (hc' : Created j id o') : i ≠ j ∧ ¬ Open s i := by
  obtain ⟨s₃, e₃, e₄⟩ := e.split
  obtain ⟨s₂, e₂, hs₂⟩ := e₃.last
  have hne : i ≠ j := by
    have h1 := task_new e₂ j (created_open (good_hist e₂).1 (move_of_step hs₂) hc').1
    have h2 := made e₂
    have h3 : Shown (tr ++ [(x, o)] ++ tr') o := (Shown.last tr x o).mono tr'
    rcases hc with ⟨k, rfl⟩ | ⟨p, r, rfl⟩
    · obtain ⟨h4, h5, _⟩ := h2.stub k i id h3
      exact h5 ▸ h1.1 k h4
    · obtain ⟨h4, h5, _⟩ := h2.proxy p i id r h3
      exact h5 ▸ h1.2 p h4
  refine ⟨hne, fun ho => ?_⟩
  have hg₃ := (good_hist e₃).1
  have h1 := (created_open (good_hist e₂).1 (move_of_step hs₂) hc').2
  have h2 := made e₃
  have hi : i < s₃.ifCount ∧ (s₃.ifaces i).id = id := by
    have h3 : Shown (tr ++ [(x, o)] ++ tr' ++ [(y, o')]) o := ((Shown.last tr x o).mono tr').mono _
    rcases hc with ⟨k, rfl⟩ | ⟨p, r, rfl⟩
    · exact (h2.stub k i id h3).2.2
    · exact (h2.proxy p i id r h3).2.2.2
  have hj : (s₃.ifaces j).id = id := by
    have h3 : Shown (tr ++ [(x, o)] ++ tr' ++ [(y, o')]) o' := Shown.last ..
    rcases hc' with ⟨k, rfl⟩ | ⟨p, r, rfl⟩
    · exact (h2.stub k j id h3).2.2.2
    · exact (h2.proxy p j id r h3).2.2.2.2
  have h5 := hg₃.opens.shared i (Open.back hg₃ e₄ hi.1 ho).1
  have h6 := hg₃.opens.shared j h1
  rw [hi.2] at h5
  rw [hj, h5] at h6
  cases h6
  exact hne rfl

end Rsomeip.Rt.Ep
