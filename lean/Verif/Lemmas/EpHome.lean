import Verif.Lemmas.EpConn

/-! # Connections that a listener has registered -/

namespace Rsomeip.Rt.Ep

open Someip (InterfaceId)
open Spec Spec.Ep

section
variable {dg : Bool} {s s' : State} {x : Action} {o : Obs} {a : Addr} {l c : Nat}

/-- Nobody has asked for a connection to `a`, and the only connection with `a` that a listener is about
to register is the given one. -/
structure Untold (s : State) (a : Addr) (w : Option (Nat × Nat)) : Prop where
  calls : ∀ k m, (s.stubs k).pc.call ≠ some (a, m)
  cmds : ∀ k t, .connect k a t ∉ s.cmds
  pc : ∀ k t, s.pc ≠ .connect k a t
  share : ∀ l c, (s.liss l).pc = .share c → (s.conns c).addr = a → w = some (l, c)

/-- Connection `c` is registered for `a`, and nobody has asked for another one. -/
structure Homed (s : State) (a : Addr) (c : Nat) : Prop where
  peer : s.peers.get a = some c
  asking : ∀ k m, (s.stubs k).pc ≠ .asking a m
  asked : ∀ k m t, (s.stubs k).pc ≠ .asked a m t
  sharing : ∀ k m d, (s.stubs k).pc ≠ .share a m d
  sending : ∀ k m d, (s.stubs k).pc = .sending a m d → d = c
  share : ∀ l c, (s.liss l).pc = .share c → (s.conns c).addr ≠ a

/-- The endpoint has no request for a connection to `a`. -/
structure Unasked (s : State) (a : Addr) : Prop where
  cmds : ∀ k t, .connect k a t ∉ s.cmds
  pc : ∀ k t, s.pc ≠ .connect k a t

theorem Untold.init (a : Addr) : Untold init a none := by
  constructor <;> simp [Ep.init, StubPc.call]

theorem Move.lis_back (m : Move dg s x o s') (hl : l < s.lisCount)
    (ha : (s'.liss l).alive = true) : (s.liss l).alive = true := by
  cases m <;> first | exact ha | grind [upd, newLis, deadLis]

theorem Move.lis_keep (m : Move dg s x o s') (hl : l < s.lisCount) : l < s'.lisCount := by
  cases m <;> first | exact hl | exact Nat.lt_succ_of_lt hl

theorem Move.conn_back (m : Move dg s x o s') (hc : c < s.connCount)
    (ha : (s'.conns c).alive = true) : (s.conns c).alive = true := by
  rcases m.alive_new c ha with h | ⟨h, _⟩
  · exact h
  · omega

theorem Untold.step {w : Option (Nat × Nat)} (h : Untold s a w) (hp : Peers s) (m : Move dg s x o s')
    (h1 : ∀ l, x ≠ .accept l a) (h2 : ∀ k m, x ≠ .stubSend k a m) : Untold s' a w := by
  obtain ⟨q1, q2, q3, q4⟩ := h
  have h5 := answer_cases s
  have h6 := refuse_cases s
  have h7 := hp.lis
  refine ⟨?_, ?_, ?_, ?_⟩
  · clear q2 q3 q4
    cases m <;> first | exact q1 | grind [upd, stubAt_apply, StubPc.call]
  · clear q3 q4 h5 h6
    cases m
    case ask k b m hw hq =>
      have := q1 k m
      rw [hw] at this
      grind [StubPc.call]
    all_goals first | exact q2 | grind
  · clear q1 q4 h5 h6
    cases m <;> first | exact q3 | grind
  · clear q1 q2 q3 h5 h6
    cases m <;> first | exact q4 | grind [upd, newLis, deadLis, newConn, Conn.ended]

/-- The listener accepts a connection from `a`. -/
theorem Untold.accept (h : Untold s a none) (hp : Peers s)
    (m : Move dg s (.accept l a) (.opened c a) s') :
    Untold s' a (some (l, c)) ∧ (s'.liss l).pc = .share c ∧ c < s'.connCount ∧
      (s'.conns c).addr = a := by
  obtain ⟨q1, q2, q3, q4⟩ := h
  have h7 := hp.lis
  cases m
  refine ⟨⟨q1, q2, q3, ?_⟩, ?_, ?_, ?_⟩ <;> grind [upd, newConn]

/-- While it registers the connection, the listener does nothing else. -/
theorem Move.sharing (m : Move dg s x o s') (h : (s.liss l).pc = .share c) (hl : l < s.lisCount)
    (hx : x ≠ .lisShare l) (ha : (s'.liss l).alive = true) : (s'.liss l).pc = .share c := by
  cases m <;> first | exact h | grind [upd, newLis, deadLis]

/-- The listener registers the connection. -/
theorem Untold.registers (h : Untold s a (some (l, c))) (hs : (s.liss l).pc = .share c)
    (hc : (s.conns c).addr = a) (m : Move dg s (.lisShare l) o s') :
    Homed s' a c ∧ Unasked s' a ∧ (s'.liss l).conns.get a = some c := by
  obtain ⟨q1, q2, q3, q4⟩ := h
  cases m with
  | lisShare _ d hw hl =>
    rw [hs] at hw
    cases hw
    subst hc
    have call : ∀ k m pc, (s.stubs k).pc = pc → pc.call ≠ some ((s.conns c).addr, m) :=
      fun k m pc h => h ▸ q1 k m
    refine ⟨⟨by simp [Map.get_insert], fun k m h => call k m _ h rfl, fun k m t h => call k m _ h rfl,
      fun k m d h => call k m _ h rfl, fun k m d h => (call k m _ h rfl).elim, ?_⟩, ⟨q2, q3⟩,
      by simp [upd, Map.get_insert]⟩
    intro l' d h h'
    dsimp only at h
    by_cases hl : l' = l
    · subst hl
      rw [upd_same] at h
      cases h
    · rw [upd_ne _ _ hl] at h
      have := q4 l' d h h'
      grind

theorem Move.lis_alive (m : Move dg s x o s') (h : (s.liss l).alive = true)
    (h1 : ¬ (x = .lisCmd l ∧ o = .ended)) (h2 : x ≠ .acceptNone l) (hl : l < s.lisCount) :
    (s'.liss l).alive = true := by
  cases m <;> first | exact h | grind [upd, newLis, deadLis]

theorem Move.conn_alive (m : Move dg s x o s') (h : (s.conns c).alive = true)
    (h1 : ∀ r, ¬ (x = .packet c r ∧ o = .ended)) (h2 : ¬ (x = .connCmd c ∧ o = .ended))
    (h3 : x ≠ .sent c false) (hc : c < s.connCount) : (s'.conns c).alive = true := by
  cases m
  case packetEnd d r _ _ _ =>
    have : c ≠ d := fun h => h1 r ⟨h ▸ rfl, rfl⟩
    simpa [upd_ne _ _ this] using h
  all_goals first | exact h | grind [upd, newConn, Conn.ended]

/-- It stays registered as long as the connection lives, somebody owns it, and nobody else connects
from `a`; calls of `send_to` use it. -/
theorem Homed.step (h : Homed s a c) (hp : Peers s) (m : Move dg s x o s')
    (h1 : ∀ l, x ≠ .accept l a) (hs : s.connStrong c = true) (hc : (s'.conns c).alive = true) :
    Homed s' a c ∧ (∀ k m, x = .stubStep k → (s.stubs k).pc.call = some (a, m) →
      o = .none ∨ o = .accepted c m) := by
  obtain ⟨p1, p3, p4, p5, p6, p9⟩ := h
  have hca : (s.conns c).alive = true := m.conn_back (hp.peers a c p1).1 hc
  have h5 := answer_cases s
  have h6 := refuse_cases s
  have h7 := hp.lis
  have h8 := (hp.peers a c p1).1
  refine ⟨⟨?_, ?_, ?_, ?_, ?_, ?_⟩, ?_⟩
  · clear p3 p4 h5 h6
    cases m <;> first | exact p1 | grind [Map.get_insert, Map.get_remove]
  · clear p4 p5 p6 p9
    cases m <;> first | exact p3 | grind [upd, stubAt_apply]
  · clear p5 p6 p9
    cases m <;> first | exact p4 | grind [upd, stubAt_apply]
  · clear p1 p3 p6 p9
    cases m <;> first | exact p5 | grind [upd, stubAt_apply]
  · clear p3 p4 p9
    cases m <;> first | exact p6 | grind [upd, stubAt_apply]
  · clear p1 p3 p4 p5 p6 h5 h6
    cases m <;> first | exact p9 | grind [upd, newLis, deadLis, newConn, Conn.ended]
  · clear p4 p9 h5 h6 h7
    cases m <;> first | (intro k m h; cases h; done) | grind [StubPc.call]

theorem Unasked.step (h : Unasked s a) (hh : Homed s a c) (m : Move dg s x o s') : Unasked s' a := by
  obtain ⟨p7, p8⟩ := h
  have p3 := hh.asking
  clear hh
  refine ⟨?_, ?_⟩
  · cases m <;> first | exact p7 | grind
  · cases m <;> first | exact p8 | grind

/-- The listener goes on owning it. -/
theorem Homed.lis_owns (h : Homed s a c) (m : Move dg s x o s') (hl : l < s.lisCount)
    (ho : (s.liss l).conns.get a = some c) (ha : (s'.liss l).alive = true) :
    (s'.liss l).conns.get a = some c := by
  have p9 := h.share
  clear h
  cases m <;> first | exact ho | grind [upd, Map.get_insert, deadLis, newLis]

theorem lis_strong (hf : Fresh s) (ho : (s.liss l).conns.get a = some c) : s.connStrong c = true :=
  (connStrong_iff hf c).mpr (.inr (.inl ⟨l, (Lis.holdsConn_iff _ _).mpr (.inl ⟨a, Map.mem_of_get ho⟩)⟩))

theorem stub_strong {k : Nat} (hf : Fresh s) (ho : (s.stubs k).conns.get a = some c) :
    s.connStrong c = true :=
  (connStrong_iff hf c).mpr (.inr (.inr (.inl ⟨k, (Stub.holdsConn_iff _ _).mpr
    (.inl ⟨a, Map.mem_of_get ho⟩)⟩)))

/-! ### Connections that a stub has made -/

/-- Only stub `k` sends to `a`, and nobody connects from there: the connection that is registered for `a`
is its own. -/
structure Solo (s : State) (a : Addr) (k : Nat) : Prop where
  calls : ∀ j m, (s.stubs j).pc.call = some (a, m) → j = k
  own : ∀ d, s.peers.get a = some d → k < s.stubCount ∧
    ((s.stubs k).alive = true → (s.stubs k).conns.get a = some d)
  sending : ∀ m d, (s.stubs k).pc = .sending a m d → s.peers.get a = some d
  share : ∀ l c, (s.liss l).pc = .share c → (s.conns c).addr ≠ a

theorem Solo.init (a : Addr) (k : Nat) : Solo init a k := by
  constructor <;> simp [Ep.init, StubPc.call, Map.empty, Map.get, Map.find]

theorem Solo.step {k : Nat} (h : Solo s a k) (hp : Peers s) (hf : Fresh s) (m : Move dg s x o s')
    (h1 : ∀ l, x ≠ .accept l a) (h2 : ∀ j m, x = .stubSend j a m → j = k) : Solo s' a k := by
  obtain ⟨q1, q2, q3, q4⟩ := h
  have h5 := answer_cases s
  have h6 := refuse_cases s
  have h7 := hp.lis
  have c1 : ∀ j m d, (s.stubs j).pc = .share a m d → j = k := fun j m d h => q1 j m (h ▸ rfl)
  have c2 : ∀ j m, (s.stubs j).pc = .enter a m → j = k := fun j m h => q1 j m (h ▸ rfl)
  have c3 : ∀ j m d, (s.stubs j).pc = .sending a m d → j = k := fun j m d h => q1 j m (h ▸ rfl)
  have hk : (s.stubs k).pc = .idle ∨ k < s.stubCount := by
    by_cases h : k < s.stubCount
    · exact .inr h
    · exact .inl (by rw [hf.stubs k (Nat.not_lt.mp h)])
  refine ⟨?_, ?_, ?_, ?_⟩
  · clear q2 q3 q4 c1 c2 c3
    cases m
    case stubSend j b m _ _ =>
      intro i x hi
      by_cases hij : i = j
      · subst hij
        dsimp only at hi
        rw [stubAt_apply, if_pos rfl] at hi
        cases hi
        exact h2 i _ rfl
      · dsimp only at hi
        rw [stubAt_apply, if_neg hij] at hi
        exact q1 i x hi
    all_goals first | exact q1 | grind [upd, stubAt_apply, StubPc.call]
  · clear q1 q3
    cases m <;> first | exact q2 | grind [upd, stubAt_apply, Map.get_insert, Map.get_remove]
  · clear q1 q2
    cases m <;> first | exact q3 | grind [upd, stubAt_apply, Map.get_insert, Map.get_remove]
  · clear q1 q2 q3 h5 h6 c1 c2 c3
    cases m <;> first | exact q4 | grind [upd, newLis, deadLis, newConn, Conn.ended]

theorem Move.stub_lives {k : Nat} (m : Move dg s x o s') (h : (s.stubs k).alive = true)
    (h1 : x ≠ .dropStub k) (hk : k < s.stubCount) : (s'.stubs k).alive = true := by
  have h5 := answer_cases s
  have h6 := refuse_cases s
  cases m <;> first | exact h | grind [upd, stubAt_apply]

end

end Rsomeip.Rt.Ep
