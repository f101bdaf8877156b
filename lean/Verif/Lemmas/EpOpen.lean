import Verif.Lemmas.EpHeld

/-! # Who has the receiver of a channel, and which channels are open -/

namespace Rsomeip.Rt.Ep

open Someip (InterfaceId)

/-- Where the receiver of a channel can be. -/
inductive Reader where
  | stub (k : Nat)
  | proxy (p : Nat)
  | task
  deriving DecidableEq

/-- The receiver of channel `i` is at `x`. -/
def Reads (s : State) : Reader → Nat → Prop
  | .stub k, i => (s.stubs k).alive = true ∧ (s.stubs k).iface = i
  | .proxy p, i => (s.proxies p).alive = true ∧ (s.proxies p).iface = i
  | .task, i => s.pc.holds i = true

/-- Every receiver is at one place. -/
structure Readers (s : State) : Prop where
  rx : ∀ x i, Reads s x i → i < s.ifCount ∧ (s.ifaces i).rx = true
  one : ∀ x y i, Reads s x i → Reads s y i → x = y
  some : ∀ i, (s.ifaces i).rx = true → ∃ x, Reads s x i

theorem Readers.init : Readers init := by
  constructor
  · intro x i h; cases x <;> simp [Reads, Ep.init, EpPc.holds] at h
  · intro x y i h; cases x <;> simp [Reads, Ep.init, EpPc.holds] at h
  · simp [Ep.init]

section
variable {dg : Bool} {s s' : State} {a : Action} {o : Obs}

/-- How the receivers move. -/
theorem Move.reads (hf : Fresh s) (m : Move dg s a o s') (x : Reader) (i : Nat)
    (h : Reads s' x i) :
    Reads s x i ∨
      (Reads s .task i ∧ ¬ Reads s' .task i ∧
        (x = .stub s.stubCount ∨ x = .proxy s.proxyCount)) ∨
      (x = .task ∧ i = s.ifCount ∧ s'.ifCount = s.ifCount + 1) := by
  have h5 := answer_cases s
  have h6 := refuse_cases s
  have h7 := hf.stubs s.stubCount
  have h8 := hf.proxies s.proxyCount
  cases x with
  | stub k => cases m <;> first | exact .inl h | grind [Reads, upd, stubAt_apply, EpPc.holds]
  | proxy p => cases m <;> first | exact .inl h | grind [Reads, upd, EpPc.holds]
  | task => cases m <;> first | exact .inl h | grind [Reads, EpPc.holds]

theorem Readers.step_rx (h : Readers s) (hf : Fresh s) (m : Move dg s a o s') (x : Reader) (i : Nat)
    (hx : Reads s' x i) : i < s'.ifCount ∧ (s'.ifaces i).rx = true := by
  have h1 := m.reads hf x i hx
  have h2 := h.rx
  have h3 := h.one
  have h5 := answer_cases s
  have h6 := refuse_cases s
  clear h
  cases m
  case dropStub k ha =>
    have r : Reads s (.stub k) (s.stubs k).iface := ⟨ha, rfl⟩
    have := h3 _ x _ r
    cases x <;> grind [Reads, upd, Iface.drop]
  case dropProxy p ha =>
    have r : Reads s (.proxy p) (s.proxies p).iface := ⟨ha, rfl⟩
    have := h3 _ x _ r
    cases x <;> grind [Reads, upd, Iface.drop]
  all_goals grind [Reads, upd, Iface.drop, stubAt_apply, EpPc.holds]

theorem Readers.step_one (h : Readers s) (hf : Fresh s) (m : Move dg s a o s') (x y : Reader)
    (i : Nat) (hx : Reads s' x i) (hy : Reads s' y i) : x = y := by
  have h1 := m.reads hf x i hx
  have h2 := m.reads hf y i hy
  have h3 := h.one
  have h4 := h.rx
  have h5 := hf.stubs s.stubCount
  have h6 := hf.proxies s.proxyCount
  cases m <;> grind [Reads, upd]

/-- A receiver stays where it is until it is dropped or handed out. -/
theorem Move.reads_keep (hf : Fresh s) (m : Move dg s a o s') (x : Reader) (i : Nat)
    (h : Reads s x i) :
    Reads s' x i ∨ (s'.ifaces i).rx = false ∨
      Reads s' (.stub s.stubCount) i ∨ Reads s' (.proxy s.proxyCount) i := by
  have h4 := answer_cases s
  have h5 := refuse_cases s
  have h7 := hf.stubs s.stubCount
  have h8 := hf.proxies s.proxyCount
  cases x with
  | stub k =>
    cases m <;> first | exact .inl h | grind [Reads, upd, Iface.drop, stubAt_apply]
  | proxy p => cases m <;> first | exact .inl h | grind [Reads, upd, Iface.drop]
  | task => cases m <;> first | exact .inl h | grind [Reads, upd, Iface.drop, EpPc.holds]

theorem Move.rx_new (m : Move dg s a o s') {i : Nat} (h : (s'.ifaces i).rx = true) :
    (s.ifaces i).rx = true ∨ i = s.ifCount ∧ s'.ifCount = s.ifCount + 1 ∧ Reads s' .task i := by
  cases m <;> first | exact .inl h | grind [upd, Iface.drop, Reads, EpPc.holds]

theorem Readers.step_some (h : Readers s) (hf : Fresh s) (m : Move dg s a o s') (i : Nat)
    (hr : (s'.ifaces i).rx = true) : ∃ x, Reads s' x i := by
  rcases m.rx_new hr with h1 | ⟨_, _, h1⟩
  · obtain ⟨x, hx⟩ := h.some i h1
    rcases m.reads_keep hf x i hx with h2 | h2 | h2 | h2
    · exact ⟨_, h2⟩
    · rw [hr] at h2; cases h2
    · exact ⟨_, h2⟩
    · exact ⟨_, h2⟩
  · exact ⟨_, h1⟩

theorem Readers.step (h : Readers s) (hf : Fresh s) (m : Move dg s a o s') : Readers s' :=
  ⟨h.step_rx hf m, h.step_one hf m, h.step_some hf m⟩

/-! ### Open channels -/

/-- The endpoint task has found that there is no usable channel for `id`, and is about to make
one. -/
def EpPc.making : EpPc → InterfaceId → Prop
  | .serveListen id, x => x = id
  | .serveShare id _, x => x = id
  | .proxyGet id _, x => x = id
  | .proxyConnect id _, x => x = id
  | .proxyShare id _ _, x => x = id
  | _, _ => False

/-- Messages can be put into channel `i`: both ends exist. -/
def Open (s : State) (i : Nat) : Prop := (s.ifaces i).rx = true ∧ Held s i

/-- Open channels are in the table; in particular, there is at most one for each interface. -/
structure Opens (s : State) : Prop where
  shared : ∀ i, Open s i → s.shared.get (s.ifaces i).id = some i
  making : ∀ i id, s.pc.making id → (s.ifaces i).id = id → ¬ Open s i

theorem Opens.init : Opens init := by
  constructor <;> intro i <;> simp [Open, Ep.init]

theorem Move.open_new (hf : Fresh s) (m : Move dg s a o s') {i : Nat} (h : Open s' i) :
    Open s i ∨ i = s.ifCount ∧ s'.ifCount = s.ifCount + 1 := by
  rcases m.rx_new h.1 with h1 | ⟨h1, h2, _⟩
  · rcases m.held_new hf h.2 with h3 | h3
    · exact .inl ⟨h1, h3⟩
    · exact .inr h3
  · exact .inr ⟨h1, h2⟩

theorem Opens.step_shared (h : Opens s) (hf : Fresh s) (hi : Ids s) (m : Move dg s a o s') (i : Nat)
    (ho : Open s' i) : s'.shared.get (s'.ifaces i).id = some i := by
  have h1 := m.open_new hf ho
  have h2 := h.shared i
  have h3 := h.making i
  have h4 := hi.sending
  have h5 := @ifStrong_false s hf
  have h6 := hf.ifaces s.ifCount (Nat.le_refl _)
  have h7 : Open s i → i < s.ifCount := fun h => hi.held i h.2
  have h8 := @Move.id dg s s' a o m i
  have h9 := ho.1
  have h10 := ho.2
  clear h hi
  cases m <;> first | grind [Open, upd, Map.get_insert, Map.get_remove, EpPc.making, Iface.drop]

theorem Opens.step_making (h : Opens s) (hf : Fresh s) (hi : Ids s) (m : Move dg s a o s') (i : Nat)
    (id : InterfaceId) (hm : s'.pc.making id) (he : (s'.ifaces i).id = id) : ¬ Open s' i := by
  intro ho
  have h1 := m.open_new hf ho
  have h2 := h.shared i
  have h3 := h.making i id
  have h5 := ifStrong_iff hf
  have h7 : Open s i → i < s.ifCount := fun h => hi.held i h.2
  have h8 := @Move.id dg s s' a o m i
  clear h hi
  cases m <;> grind [Open, EpPc.making, State.known]

theorem Opens.step (h : Opens s) (hf : Fresh s) (hi : Ids s) (m : Move dg s a o s') : Opens s' :=
  ⟨h.step_shared hf hi m, h.step_making hf hi m⟩

/-- What holds in every state. -/
structure Good (s : State) : Prop where
  fresh : Fresh s
  ended : Ended s
  ids : Ids s
  readers : Readers s
  opens : Opens s

theorem Good.init : Good init := ⟨.init, .init, .init, .init, .init⟩

theorem Good.step (h : Good s) (m : Move dg s a o s') : Good s' :=
  ⟨h.fresh.step h.ended m, h.ended.step m, h.ids.step h.fresh m, h.readers.step h.fresh m,
    h.opens.step h.fresh h.ids m⟩

theorem Good.exec {tr : List (Action × Obs)} (h : Good s) (e : Exec (Ep.step dg) s tr s') :
    Good s' := by
  induction e with
  | nil => exact h
  | snoc _ hs ih => exact ih.step (move_of_step hs)

end

end Rsomeip.Rt.Ep
