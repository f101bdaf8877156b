import Verif.Lemmas.EpOwn
import Verif.Lemmas.EpMove
import Verif.Props.Rt.Endpoint

/-! # C69: a dropped service can be offered again -/

namespace Rsomeip

open Rt Rt.Ep Spec Spec.Ep Someip

/-- Two stubs are made, the first is dropped, and all tasks have done what they can. -/
def Spec.Ep.againTrace : Trace :=
  [(.serve ⟨1, 1⟩, .none), (.ep true, .none), (.ep true, .none), (.ep true, .none), (.ep true, .none),
    (.ep true, .serving 0 0 ⟨1, 1⟩), (.serve ⟨2, 1⟩, .none), (.ep true, .none), (.ep true, .none),
    (.ep true, .none), (.ep true, .none), (.ep true, .serving 1 1 ⟨2, 1⟩), (.lisCmd 0, .none),
    (.lisCmd 0, .none), (.dropStub 0, .none)]

/-- Interface 1 is asked for again. -/
def Spec.Ep.refusal : Trace :=
  [(.serve ⟨1, 1⟩, .none), (.ep true, .none), (.ep true, .serveFailed ⟨1, 1⟩ .exists)]

/-- **C69** is false: the stub for interface 1 is dropped, and nevertheless the interface is refused
as existing already. -/
theorem C69_false : ∃ s, Exec (step true) init (againTrace ++ refusal) s := by
  have h : (perform (step true) init ((againTrace ++ refusal).map Prod.fst)).map
      (fun x => x.1.map Prod.snd) = some ((againTrace ++ refusal).map Prod.snd) := by decide +kernel
  obtain ⟨s, e⟩ := exec_of_shown h
  exact ⟨s, e⟩

/-- The listener, which another stub uses, has stored a channel for interface `id`. -/
structure Spec.Ep.Kept (id : InterfaceId) (i l k : Nat) (s : State) : Prop where
  table : s.shared.get id = some i
  stored : (id, i) ∈ (s.liss l).owned.entries
  queue : ∀ j, (id, j) ∉ (s.liss l).cmds
  alive : (s.liss l).alive = true
  user : (s.stubs k).alive = true ∧ (s.stubs k).lis = l
  pc : ¬ s.pc.past id

/-- Nothing happens that helps: stub `k` stays, listener `l` is not closed from outside, and no
message for interface `id` is found undeliverable. -/
def Spec.Ep.Unhelped (id : InterfaceId) (l k : Nat) (t : Trace) : Prop :=
  ∀ x ∈ t, x.1 ≠ .dropStub k ∧ x.1 ≠ .acceptNone l ∧ ∀ m w, x.2 = .dropped m w → ¬ For m id

section
variable {dg : Bool} {s s' : State} {a : Action} {o : Obs} {id : InterfaceId} {i l k : Nat}

theorem Spec.Ep.Kept.strong (h : Kept id i l k s) (hf : Fresh s) : s.ifStrong i = true :=
  (ifStrong_iff hf i).mpr (.inr (.inr ⟨l, (Lis.holds_iff ..).mpr (.inl ⟨id, h.stored⟩)⟩))

theorem Spec.Ep.Kept.known (h : Kept id i l k s) (hf : Fresh s) : s.known id = true := by
  rw [State.known, h.table]
  exact h.strong hf

theorem Spec.Ep.Kept.lisStrong (h : Kept id i l k s) (hf : Fresh s) : s.lisStrong l = true :=
  (lisStrong_iff hf l).mpr (.inr ⟨k, h.user⟩)

theorem Spec.Ep.Kept.step_pc (h : Kept id i l k s) (hf : Fresh s) (m : Move dg s a o s') :
    ¬ s'.pc.past id ∧ (Answers id o → Refused id o) := by
  have h1 := h.known hf
  have h2 := h.pc
  simp only [EpPc.past] at h2 ⊢
  clear h
  cases m
  case proxyRecv =>
    refine ⟨h2, ?_⟩
    split <;> simp [Answers]
  all_goals first
    | exact ⟨h2, by simp [Answers]⟩
    | grind [EpPc.making, Answers, Refused]

theorem Spec.Ep.Kept.step_user (h : Kept id i l k s) (hf : Fresh s) (m : Move dg s a o s')
    (ha : a ≠ .dropStub k) : (s'.stubs k).alive = true ∧ (s'.stubs k).lis = l := by
  obtain ⟨h1, h5⟩ := h.user
  have h2 := stub_lt hf h1
  have h3 := answer_cases s
  have h4 := refuse_cases s
  clear h hf
  cases m <;> first | exact ⟨h1, h5⟩ | grind [upd, stubAt_apply]

theorem Spec.Ep.Kept.step_lis (h : Kept id i l k s) (hf : Fresh s) (m : Move dg s a o s')
    (ha : a ≠ .acceptNone l) :
    (s'.liss l).alive = true ∧ (id, i) ∈ (s'.liss l).owned.entries ∧
      ∀ j, (id, j) ∉ (s'.liss l).cmds := by
  have h1 := h.alive
  have h2 := h.stored
  have h3 := h.queue
  have h4 := h.lisStrong hf
  have h5 := h.pc
  have h6 : l ≠ s.lisCount := by
    rintro rfl
    rw [hf.liss _ (Nat.le_refl _)] at h1
    cases h1
  simp only [EpPc.past] at h5
  clear h hf
  cases m <;> first | exact ⟨h1, h2, h3⟩ | grind [upd, Map.mem_insert]

theorem Spec.Ep.Kept.step_table (h : Kept id i l k s) (hg : Good s) (m : Move dg s a o s')
    (ho : ∀ m w, o = .dropped m w → ¬ For m id) : s'.shared.get id = some i := by
  have h1 := h.table
  have h5 := h.pc
  have h2 : ∀ m w, o = .dropped m w → InterfaceId.of m ≠ id := fun m w hw he =>
    ho m w hw (by rw [← he]; exact ⟨rfl, rfl⟩)
  have h6 : ∀ l, s.pc ≠ .serveShare id l := fun l h => h5 (.inl (by rw [h]; rfl))
  have h7 : ∀ a c, s.pc ≠ .proxyShare id a c := fun a c h => h5 (.inl (by rw [h]; rfl))
  clear h hg h5
  cases m
  case serveShare => grind [Map.get_insert]
  case proxyShare => grind [Map.get_insert]
  case routeDead => grind [Map.get_remove]
  case putClosed => grind [Map.get_remove]
  all_goals exact h1

/-- An interface is refused because it is in the table, and its channel has a sender. -/
theorem refused_known (m : Move dg s a o s') (hr : Refused id o) :
    ∃ pc, s' = { s with pc := pc } ∧ s.ifLocked id = false ∧ s.known id = true ∧
      ∀ i, s.pc.holds i = false := by
  rcases hr with h | ⟨b, h⟩
  · cases m <;> first | (cases h; done) | (split at h <;> cases h) | cases h
    rename_i hpc hl hk
    exact ⟨_, rfl, hl, hk, by rw [hpc]; simp [EpPc.holds]⟩
  · cases m <;> first | (cases h; done) | (split at h <;> cases h) | cases h
    rename_i hl hk hpc
    exact ⟨_, rfl, hl, hk, by rw [hpc]; simp [EpPc.holds]⟩

theorem For.of {m : Msg} (h : For m id) : InterfaceId.of m = id := by
  obtain ⟨service, version⟩ := id
  obtain ⟨h1, h2⟩ := h
  subst h1 h2
  rfl

end

/-- **C69** is false for as long as it pleases: while the listener task, which another stub uses,
keeps the channel of the dropped stub, every request for the interface is refused, until a message
for the interface arrives. -/
theorem C69_refused {dg : Bool} {tr t : Trace} {s s' : State} {id : InterfaceId} {i l k : Nat}
    (e : Exec (step dg) init tr s) (h : Kept id i l k s) (e' : Exec (step dg) s t s')
    (hu : Unhelped id l k t) : (∀ x ∈ t, Answers id x.2 → Refused id x.2) ∧ Kept id i l k s' := by
  induction e' with
  | nil => exact ⟨fun x hx => absurd hx List.not_mem_nil, h⟩
  | @snoc t s₁ s₂ a o e₁ hs ih =>
    obtain ⟨h1, h2⟩ := ih fun x hx => hu x (List.mem_append_left _ hx)
    obtain ⟨hu1, hu2, hu3⟩ := hu (a, o) (List.mem_append_right _ (List.mem_singleton.mpr rfl))
    have hg := (good_hist (e.append e₁)).1
    have hm := move_of_step hs
    obtain ⟨h3, h4⟩ := h2.step_pc hg.fresh hm
    obtain ⟨h5, h6, h7⟩ := h2.step_lis hg.fresh hm hu2
    refine ⟨fun x hx => ?_, h2.step_table hg hm hu3, h6, h7, h5, h2.step_user hg.fresh hm hu1, h3⟩
    rcases List.mem_append.mp hx with hx | hx
    · exact h1 x hx
    · cases List.mem_singleton.mp hx
      exact h4

/-- After the sample, stub 0 is dropped, and its channel is kept because of stub 1. -/
example : ∃ tr s, Exec (step true) init tr s ∧ (s.stubs 0).alive = false ∧
    Kept ⟨1, 1⟩ 0 0 1 s := by
  obtain ⟨tr, s, e, h⟩ := exec_reaches (step := step true) (s := init) (againTrace.map Prod.fst)
    (fun s => decide ((s.stubs 0).alive = false ∧ s.shared.get ⟨1, 1⟩ = some 0 ∧
      (⟨1, 1⟩, 0) ∈ (s.liss 0).owned.entries ∧ (s.liss 0).cmds = [] ∧ (s.liss 0).alive = true ∧
      ((s.stubs 1).alive = true ∧ (s.stubs 1).lis = 0) ∧ s.pc = .idle)) (by decide +kernel)
  obtain ⟨h0, h1, h2, h3, h4, h5, h6⟩ := of_decide_eq_true h
  exact ⟨tr, s, e, h0, h1, h2, by simp [h3], h4, h5, by rw [h6]; simp [EpPc.past, EpPc.making]⟩

/-- **C69.** An interface is refused as existing already only if a stub or proxy for it was handed
out and no message for it has been dropped since. (Missing: that it is not refused after the stub
was dropped.) -/
theorem C69_message_partial {dg : Bool} {tr : Trace} {s : State} {y : Action} {o : Obs}
    {id : InterfaceId} (e : Exec (step dg) init (tr ++ [(y, o)]) s) (hr : Refused id o) :
    ∃ t u x i o', tr = t ++ (x, o') :: u ∧ Created i id o' ∧
      ∀ z ∈ u, ∀ m w, z.2 = .dropped m w → ¬ For m id := by
  obtain ⟨s₁, e₁, hs⟩ := e.last
  have key : Gone id s₁ ∨ ∃ t u x i o', tr = t ++ (x, o') :: u ∧ Created i id o' ∧
      ∀ z ∈ u, ∀ m w, z.2 = .dropped m w → ¬ For m id := by
    clear hs e
    induction e₁ with
    | nil => exact .inl fun i h => by cases h
    | @snoc tr s₂ s₃ a o' e₂ hs ih =>
      have hm := move_of_step hs
      have hg := (good_hist e₂).1
      by_cases hc : ∃ i, Created i id o'
      · obtain ⟨i, hc⟩ := hc
        exact .inr ⟨tr, [], a, i, o', by simp, hc,
          fun z hz => absurd hz List.not_mem_nil⟩
      · have hc : ∀ i, ¬ Created i id o' := fun i h => hc ⟨i, h⟩
        by_cases hd : ∃ m w, o' = .dropped m w ∧ For m id
        · obtain ⟨m, w, rfl, hf⟩ := hd
          refine .inl fun i h => ?_
          have := hm.gone
          rw [For.of hf, h] at this
          cases this
        · rcases ih with h1 | ⟨t, u, x, i, o'', rfl, h1, h2⟩
          · exact .inl fun i h => ⟨fun l => h1.step_liss hg.ids hm hc i l h,
              fun c => h1.step_conns hg.ids hm hc i c h⟩
          · refine .inr ⟨t, u ++ [(a, o')], x, i, o'', by simp, h1, fun z hz m w hz' hf => ?_⟩
            rcases List.mem_append.mp hz with hz | hz
            · exact h2 z hz m w hz' hf
            · cases List.mem_singleton.mp hz
              exact hd ⟨m, w, hz', hf⟩
  refine key.resolve_left fun h => ?_
  have hg := (good_hist e₁).1
  have hm := move_of_step hs
  obtain ⟨_, _, hl, hk, hp⟩ := refused_known hm hr
  rw [not_known hg h hl hp] at hk
  cases hk

/-- **C69.** An interface is refused as existing already only as long as the listener task of a stub
for it runs, or the connection of a proxy for it. (Missing: that it is not refused after the stub
was dropped.) -/
theorem C69_owner_partial {dg : Bool} {tr : Trace} {s : State} {y : Action} {o : Obs}
    {id : InterfaceId} (e : Exec (step dg) init (tr ++ [(y, o)]) s) (hr : Refused id o) :
    (∃ k i, Shown tr (.serving k i id) ∧ (s.liss (s.stubs k).lis).alive = true) ∨
    ∃ p i a, Shown tr (.proxying p i id a) ∧ (s.conns (s.proxies p).conn).alive = true := by
  obtain ⟨s₁, e₁, hs⟩ := e.last
  obtain ⟨hg, hh⟩ := good_hist e₁
  have ho := own e₁
  have hm := move_of_step hs
  obtain ⟨q, rfl, hl, hk, hp⟩ := refused_known hm hr
  have hn : ¬ Gone id s₁ := fun h => by rw [not_known hg h hl hp] at hk; cases hk
  cases hi : s₁.shared.get id with
  | none => exact absurd (fun i h => by rw [hi] at h; cases h) hn
  | some i =>
    have hid := (hg.ids.shared id i hi).2
    by_cases hl : ∃ l, (s₁.liss l).holds i = true
    · obtain ⟨l, hl⟩ := hl
      obtain ⟨k, h1, h2, h3⟩ := ho.liss l i hl
      have h4 := (hh.stubs k h1).2
      rw [h2, hid] at h4
      refine .inl ⟨k, i, h4, ?_⟩
      show (s₁.liss (s₁.stubs k).lis).alive = true
      rw [h3]
      cases ha : (s₁.liss l).alive with
      | true => rfl
      | false =>
        obtain ⟨h5, h6, _⟩ := hg.ended.liss l ha
        rw [Lis.holds_iff, h5, h6] at hl
        simp [Map.empty] at hl
    · by_cases hc : ∃ c, (s₁.conns c).owns i
      · obtain ⟨c, hc⟩ := hc
        obtain ⟨p, h1, h2, h3⟩ := ho.conns c i hc
        have h4 := (hh.proxies p h1).2
        rw [h2, hid] at h4
        refine .inr ⟨p, i, _, h4, ?_⟩
        show (s₁.conns (s₁.proxies p).conn).alive = true
        rw [h3]
        cases ha : (s₁.conns c).alive with
        | true => rfl
        | false =>
          obtain ⟨h5, _, h6, _⟩ := hg.ended.conns c ha
          rw [Conn.owns, h5, h6] at hc
          simp [Map.empty] at hc
      · refine absurd (fun j hj => ?_) hn
        rw [hi] at hj
        cases hj
        exact ⟨fun l => Bool.eq_false_iff.mpr fun h => hl ⟨l, h⟩, fun c h => hc ⟨c, h⟩⟩

theorem upd_upd {α : Type} (f : Nat → α) (i : Nat) (x y : α) : upd (upd f i x) i y = upd f i y := by
  funext j
  simp only [upd]
  split <;> rfl

/-- A listener task without users ends. -/
theorem lis_ends {dg : Bool} {l : Nat} (q : List (InterfaceId × Nat)) (s : State)
    (ha : (s.liss l).alive = true) (hq : (s.liss l).cmds = q) (hs : s.lisStrong l = false) :
    ∃ t : Trace, (∀ x ∈ t, x.1 = .lisCmd l) ∧
      Exec (step dg) s t { s with liss := upd s.liss l deadLis } := by
  induction q generalizing s with
  | nil => exact ⟨_, by simp, .cons (step_of_move (.lisEnd l ha hq hs)) .nil⟩
  | cons x q ih =>
    obtain ⟨id, i⟩ := x
    have hm : Move dg s (.lisCmd l) .none _ := .lisTake l id i q ha hq
    obtain ⟨t, h1, h2⟩ := ih
      { s with
        liss := upd s.liss l
          { s.liss l with cmds := q, owned := ((s.liss l).owned.insert id i).2 } }
      (by simp [upd_same, ha]) (by simp [upd_same]) hs
    refine ⟨_, ?_, .cons (step_of_move hm) (by simpa only [upd_upd] using h2)⟩
    intro y hy
    rcases List.mem_cons.mp hy with rfl | hy
    · rfl
    · exact h1 y hy

/-- **C69.** If the user has dropped all stubs, an interface that was only served, not used through
a proxy, can be offered again: as soon as a listener task has seen that it has no users, `serve`
succeeds. (Missing: the case that other stubs are left, see `C69_refused`.) -/
theorem C69_last_partial {dg : Bool} {tr : Trace} {s : State} {id : InterfaceId}
    (e : Exec (step dg) init tr s) (hd : ∀ k, ¬ StubOpen k tr)
    (hp : ∀ p i a, ¬ Shown tr (.proxying p i id a)) (hh : s.handles = true) (hi : s.pc = .idle)
    (hq : s.cmds = []) (hl : s.ifLocked id = false) :
    ∃ (l : Nat) (t : Trace) (k i : Nat) (s' : State), (∀ x ∈ t, x.1 = .lisCmd l) ∧
      Exec (step dg) s (t ++ [(.serve id, .none), (.ep true, .none), (.ep true, .none),
        (.ep true, .none), (.ep true, .none), (.ep true, .serving k i id)]) s' := by
  simp only [← stub_open_iff e, Bool.not_eq_true] at hd
  obtain ⟨hg, hh'⟩ := good_hist e
  have ho := own e
  have hls : ∀ l, s.lisStrong l = false := fun l => by
    refine Bool.eq_false_iff.mpr fun h => ?_
    rcases (lisStrong_iff hg.fresh l).mp h with h1 | ⟨k, h1, _⟩
    · rw [hi] at h1; cases h1
    · rw [hd k] at h1; cases h1
  -- first, let the listener that owns the channel end
  obtain ⟨l, t, s₁, h1, h2, h3, h4, h5, h6, h7, h8, h9⟩ : ∃ (l : Nat) (t : Trace) (s₁ : State),
      (∀ x ∈ t, x.1 = .lisCmd l) ∧ Exec (step dg) s t s₁ ∧ Gone id s₁ ∧ s₁.pc = .idle ∧ s₁.cmds = [] ∧
      s₁.handles = true ∧ s₁.ifLocked id = false ∧ (∀ l, s₁.lisStrong l = false) ∧
      s₁.lisCount = s.lisCount := by
    cases hi' : s.shared.get id with
    | none =>
      exact ⟨0, [], s, by simp, .nil, fun i h => (by rw [hi'] at h; cases h), hi, hq, hh, hl, hls, rfl⟩
    | some i =>
      have hid := (hg.ids.shared id i hi').2
      have hc : ∀ c, ¬ (s.conns c).owns i := fun c h => by
        obtain ⟨p, h1, h2, h3⟩ := ho.conns c i h
        have h4 := (hh'.proxies p h1).2
        rw [h2, hid] at h4
        exact hp _ _ _ h4
      by_cases hx : ∃ l, (s.liss l).holds i = true
      · obtain ⟨l, hx⟩ := hx
        have ha : (s.liss l).alive = true := by
          cases ha : (s.liss l).alive with
          | true => rfl
          | false =>
            obtain ⟨h5, h6, _⟩ := hg.ended.liss l ha
            rw [Lis.holds_iff, h5, h6] at hx
            simp [Map.empty] at hx
        obtain ⟨t, h1, h2⟩ := lis_ends (dg := dg) _ s ha rfl (hls l)
        refine ⟨l, t, _, h1, h2, fun j hj => ⟨fun l' => ?_, fun c => ?_⟩, hi, hq, hh, hl, hls, rfl⟩
        · rw [hi'] at hj
          cases hj
          show (upd s.liss l deadLis l').holds i = false
          by_cases hl' : l' = l
          · subst hl'
            rw [upd_same]
            rfl
          · rw [upd, if_neg hl']
            refine Bool.eq_false_iff.mpr fun h => hl' ?_
            obtain ⟨k, k1, k2, k3⟩ := ho.liss l i hx
            obtain ⟨k', k1', k2', k3'⟩ := ho.liss l' i h
            have := (once e).stubs k k' k1 k1' (k2.trans k2'.symm)
            subst this
            exact k3'.symm.trans k3
        · rw [hi'] at hj
          cases hj
          exact hc c
      · refine ⟨0, [], s, by simp, .nil, fun j hj => ⟨fun l' => ?_, fun c => ?_⟩, hi, hq, hh, hl, hls,
          rfl⟩
        · rw [hi'] at hj
          cases hj
          exact Bool.eq_false_iff.mpr fun h => hx ⟨l', h⟩
        · rw [hi'] at hj
          cases hj
          exact hc c
  have g1 := (good_hist (e.append h2)).1
  let s2 : State := { s₁ with cmds := s₁.cmds ++ [.serve id] }
  have m1 : Move dg s₁ (.serve id) .none s2 := .serve id h6 (by rw [h5]; decide)
  let s3 : State := { s2 with cmds := [], pc := .serveCheck id }
  have m2 : Move dg s2 (.ep true) .none s3 := .epServe true id [] h4 (by
    show s₁.cmds ++ _ = _
    rw [h5]; rfl)
  let s4 : State := { s3 with pc := .serveListen id }
  have g3 := (g1.step m1).step m2
  have m3 : Move dg s3 (.ep true) .none s4 := .serveGo true id rfl h7
    (not_known g3 h3 h7 (fun i => rfl))
  let s5 : State :=
    { s4 with
      liss := upd s4.liss s4.lisCount newLis
      lisCount := s4.lisCount + 1
      listener := some s4.lisCount
      pc := .serveShare id s4.lisCount }
  have m4 : Move dg s4 (.ep true) .none s5 := .serveNew id rfl fun l _ => by
    refine .trans ?_ (h8 l)
    simp only [State.lisStrong, EpPc.holdsLis, h4]
    rfl
  let s6 : State :=
    { s5 with
      ifaces := upd s5.ifaces s5.ifCount ⟨id, [], true⟩
      ifCount := s5.ifCount + 1
      shared := (s5.shared.insert id s5.ifCount).2
      pc := .serveTake id s4.lisCount s5.ifCount }
  have m5 : Move dg s5 (.ep true) .none s6 := .serveShare true id _ rfl h7
  have hn : s6.liss s4.lisCount = newLis := by
    show upd _ _ _ _ = _
    rw [upd_same]
  have m6 : Move dg s6 (.ep true) (.serving s6.stubCount s5.ifCount id) _ :=
    .serveTake true id s4.lisCount s5.ifCount rfl (by rw [hn]; rfl) (by rw [hn]; decide)
  exact ⟨l, t, _, _, _, h1, h2.append <| .cons (step_of_move m1) <| .cons (step_of_move m2) <|
    .cons (step_of_move m3) <| .cons (step_of_move m4) <| .cons (step_of_move m5) <|
    .cons (step_of_move m6) .nil⟩

/-- A stub that was dropped; its channel is still in the table, and has a sender. -/
example : ∃ tr s, Exec (step true) init tr s ∧ (∀ k, ¬ StubOpen k tr) ∧
    (∀ p i id a, ¬ Shown tr (.proxying p i id a)) ∧ s.handles = true ∧ s.pc = .idle ∧ s.cmds = [] ∧
    s.ifLocked ⟨1, 1⟩ = false ∧ s.known ⟨1, 1⟩ = true := by
  obtain ⟨tr, s, e, h⟩ := exec_reaches (step := step true) (s := init)
    [.serve ⟨1, 1⟩, .ep true, .ep true, .ep true, .ep true, .ep true, .dropStub 0]
    (fun s => decide ((s.stubs 0).alive = false ∧ s.stubCount = 1 ∧ s.proxyCount = 0 ∧
      s.handles = true ∧ s.pc = .idle ∧ s.cmds = [] ∧ s.ifLocked ⟨1, 1⟩ = false ∧
      s.known ⟨1, 1⟩ = true)) (by decide +kernel)
  obtain ⟨h1, h2, h3, h4⟩ := of_decide_eq_true h
  refine ⟨tr, s, e, fun k => ?_, fun p i id a hs => ?_, h4⟩
  · rw [← stub_open_iff e, Bool.not_eq_true]
    cases k with
    | zero => exact h1
    | succ k => rw [(good_hist e).1.fresh.stubs (k + 1) (by omega)]
  · have := ((made e).proxy p i id a hs).1
    omega

end Rsomeip
