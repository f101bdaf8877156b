import Verif.Props.Rt.LiveAnswer

/-! # C137: in the long run a question is answered -/

namespace Rsomeip

section
open Rt Rt.Ep Spec Spec.Ep Someip

variable {dg : Bool} {r : Run dg}

/-- The call of `send_to` of stub `k` returns an error. -/
def Spec.Ep.Fails (k : Nat) (x : Option (Action × Obs)) : Prop :=
  (∃ e, x = some (.stubStep k, .sendFailed e)) ∨ ∃ y e, x = some (y, .connectFailed k e)

/-- A call of `send_to` goes on until the message is put into the queue of a connection, the call fails or is
given up. -/
theorem call_goes {s s' : State} {y : Action} {o : Obs} {a : Addr} {x : Msg} {k : Nat} (hf : Fresh s)
    (hc : (s.stubs k).pc.call = some (a, x)) (hs : step dg s y = some (s', o)) :
    (s'.stubs k).pc.call = some (a, x) ∨ (∃ c, y = .stubStep k ∧ o = .accepted c x) ∨ Fails k (some (y, o)) ∨
      y = .stubCancel k ∨ y = .dropStub k := by
  have h2 : k ≠ s.stubCount := by
    rintro rfl
    rw [hf.stubs _ (Nat.le_refl _)] at hc
    cases hc
  have h9 := answer_cases s
  have h10 := refuse_cases s
  clear hf
  cases move_of_step hs <;> first
    | exact .inl hc
    | grind [upd, stubAt_apply, StubPc.call, Fails]

/-- A call of `send_to` that does not go on for ever puts its message into the queue of a connection to its
destination, fails, or is given up; until then it goes on. -/
theorem call_ends (r : Run dg) {k i m : Nat} {a : Addr} {x : Msg} (h : r.act i = some (.stubSend k a x, .none))
    (h1 : i < m) (hm : inCall k (r.hist m) = false) :
    ∃ j, i < j ∧ (∀ v, i < v → v ≤ j → inCall k (r.hist v) = true) ∧
      ((∃ c, r.act j = some (.stubStep k, .accepted c x) ∧ Shown (r.hist j) (.opened c a)) ∨
      Fails k (r.act j) ∨ r.Does j (· = .stubCancel k) ∨ r.Does j (· = .dropStub k)) := by
  classical
  let Q : Nat → Prop := fun j => i < j ∧
    ((∃ c, r.act j = some (.stubStep k, .accepted c x) ∧ Shown (r.hist j) (.opened c a)) ∨
      Fails k (r.act j) ∨ r.Does j (· = .stubCancel k) ∨ r.Does j (· = .dropStub k))
  have n4 : ∀ M, (∀ j, j < M → ¬ Q j) → ∀ j, i < j → j ≤ M → inCall k (r.hist j) = true := by
    intro M hn j hj hjM
    suffices key : ((r.state j).stubs k).pc.call = some (a, x) by
      rw [← Bool.not_eq_false, ← idle_iff (r.exec j) k]
      intro h3
      rw [h3] at key
      cases key
    induction j, hj using Nat.le_induction with
    | base =>
      rcases r.move i with ⟨h1, _⟩ | ⟨z, o, h1, h2⟩
      · rw [h] at h1; cases h1
      · rw [h] at h1
        cases h1
        generalize r.state (i + 1) = s' at *
        cases move_of_step h2
        simp [stubAt_apply, StubPc.call]
    | succ j hj ih =>
      have ih := ih (by omega)
      have hn := hn j hjM
      rcases r.move j with ⟨_, h2⟩ | ⟨y, o, h1, h2⟩
      · rw [h2]; exact ih
      · rcases call_goes (good_hist (r.exec j)).1.fresh ih h2 with h4 | ⟨c, rfl, rfl⟩ | h4 | rfl | rfl
        · exact h4
        · refine absurd ⟨hj, .inl ⟨c, h1, ?_⟩⟩ hn
          obtain ⟨b, h5, h6⟩ := C73_stub ((r.exec j).snoc h2)
          rw [in_call (r.exec j) k _ ih] at h5
          cases h5
          exact h6
        · exact absurd ⟨hj, .inr (.inl (by rw [h1]; exact h4))⟩ hn
        · exact absurd ⟨hj, .inr (.inr (.inl ⟨_, o, h1, rfl⟩))⟩ hn
        · exact absurd ⟨hj, .inr (.inr (.inr ⟨_, o, h1, rfl⟩))⟩ hn
  have hex : ∃ j, Q j := by
    apply Classical.byContradiction
    intro hn
    have h3 := n4 m (fun j _ hj => hn ⟨j, hj⟩) m h1 (Nat.le_refl _)
    rw [hm] at h3
    cases h3
  exact ⟨Nat.find hex, (Nat.find_spec hex).1, n4 _ (fun j hj => Nat.find_min hex hj), (Nat.find_spec hex).2⟩

/-- What a stub has returned between two points of time it has returned at one of them. -/
theorem got_at (r : Run dg) {k t u : Nat} {q : List (Msg × Addr)} {m : Msg} {a : Addr} (h : t ≤ u)
    (hq : stubGot k (r.hist u) = stubGot k (r.hist t) ++ q) (hm : (m, a) ∈ q) :
    ∃ s, t ≤ s ∧ r.act s = some (.stubRecv k, .message m a) := by
  induction u, h using Nat.le_induction generalizing q with
  | base =>
    have : q = [] := by simpa using hq
    simp [this] at hm
  | succ u h ih =>
    rw [r.hist_succ] at hq
    obtain ⟨v, hv, -⟩ := r.segment h
    have h1 : stubGot k (r.hist u) = stubGot k (r.hist t) ++ stubGot k v := by
      rw [hv, stubGot, stubGot, stubGot, List.filterMap_append]
    have h2 : q = stubGot k v ++ stubGot k (r.act u).toList := by
      rw [stubGot, List.filterMap_append, ← stubGot, ← stubGot, h1, List.append_assoc] at hq
      exact (List.append_cancel_left hq).symm
    rw [h2, List.mem_append] at hm
    rcases hm with hm | hm
    · exact ih h1 hm
    · obtain ⟨e, h3, h4⟩ := List.mem_filterMap.mp hm
      have h3 := Option.mem_toList.mp h3
      refine ⟨u, h, ?_⟩
      rw [show r.act u = some e from h3]
      obtain ⟨y, o⟩ := e
      split at h4
      · rename_i h5
        cases h5
        split at h4 <;> cases h4
        simp_all
      · cases h4

end

/-! ### On a network -/

section
open Rt Rt.Net Spec Spec.Ep Spec.Net Someip
open Spec.Node (SendStep Mishap CutOff app socket)

variable {own : Addr → Bool} {r : Run own}

/-- From time `t` on, the user at `n` answers `m` with `x`: whenever stub `k` has returned `m` with sender `a`, stub
`j` calls `send_to` with `a` and `x` at some later time. -/
def Spec.Net.Answers (r : Run own) (n : Addr) (t k j : Nat) (m x : Msg) (a : Addr) : Prop :=
  ∀ s o, t ≤ s → r.act s = some ((n, .app (.stubRecv k)), o) → o.ep = some (.message m a) →
    ∃ s' o', s < s' ∧ r.act s' = some ((n, .app (.stubSend j a x)), o') ∧ o'.ep = some .none

/-- Stub `j` at `n` has called `send_to` with `a` and `x`, not before time `t`, and while this call goes on, it returns
an error at time `u` or is given up. -/
def Spec.Net.GivenUp (r : Run own) (n : Addr) (t j : Nat) (a : Addr) (x : Msg) (u : Nat) : Prop :=
  ∃ s o, t ≤ s ∧ s < u ∧ r.act s = some ((n, .app (.stubSend j a x)), o) ∧
    (∀ v, s < v → v ≤ u → inCall j (app (at_ n (r.hist v))) = true) ∧
    ((∃ o e, r.act u = some ((n, .app (.stubStep j)), o) ∧ o.ep = some (.sendFailed e)) ∨
      (∃ y o e, r.act u = some ((n, .app y), o) ∧ o.ep = some (.connectFailed j e)) ∨
      r.Does u (At n (· = .app (.stubCancel j))) ∨ r.Does u (At n (· = .app (.dropStub j))))

/-- What `C137_round_trip` and `C137_ask` have in common. -/
theorem round_trip {a n : Addr} {c t k j i p i' : Nat} {id id' : InterfaceId} {m x : Msg} {y : Rt.Ep.Action}
    {o : Node.Obs} (ha : own a = true) (hn : own n = true) (hf : Fair r n) (hp : Polled r n) (hi : CallsEnd r n)
    (hb : Settles r n) (hfa : Fair r a) (hpa : Polled r a) (hia : CallsEnd r a) (hba : Settles r a)
    (hw : Carries r a n) (hwa : Carries r n a)
    (hc : Shown (app (at_ a (r.hist t))) (.opened c n)) (hk : Shown (app (at_ n (r.hist t))) (.serving k i id))
    (hk' : Shown (app (at_ a (r.hist t))) (.proxying p i' id' n))
    (h : r.act t = some ((a, .app y), o)) (ho : o.ep = some (.accepted c m))
    (hl : 16 + m.payload.length ≤ 1400) (hm : Normal m) (hid : For m id)
    (hans : Answers r n t k j m x a)
    (hl' : 16 + x.payload.length ≤ 1400) (hm' : Normal x) (hid' : For x id') :
    ∃ u, t ≤ u ∧ (ConnOver c (app (at_ a (r.hist u))) ∨ (.failure, .none) ∈ socket (at_ n (r.hist u)) ∨
      Mishap a (frame m) (socket (at_ n (r.hist t))) (socket (at_ n (r.hist u))) ∨
      (.dropStub k, .none) ∈ app (at_ n (r.hist u)) ∨
      GivenUp r n t j a x u ∨
      (∃ c', Shown (app (at_ n (r.hist u))) (.opened c' a) ∧ ConnOver c' (app (at_ n (r.hist u)))) ∨
      (.failure, .none) ∈ socket (at_ a (r.hist u)) ∨
      Mishap n (frame x) (socket (at_ a (r.hist t))) (socket (at_ a (r.hist u))) ∨
      (.dropProxy p, .none) ∈ app (at_ a (r.hist u)) ∨ (t < u ∧ CutOff (at_ a (r.hist u)) p n) ∨
      ∃ q, proxyGot p (app (at_ a (r.hist u))) = proxyGot p (app (at_ a (r.hist t))) ++ q ∧ x ∈ q) := by
  have hist : ∀ t, (Node.epRun (nodeRun r n)).hist t = app (at_ n (r.hist t)) := fun t => by
    rw [Node.epRun_hist, nodeRun_hist]
  obtain ⟨u, h1, h2⟩ := C135_request ha hn (hfa.send c) hf hp hi hb hw hc hk h ho hl hm hid
  rcases h2 with h2 | h2 | h2 | h2 | ⟨q, h2, h3⟩
  · exact ⟨u, h1, .inl h2⟩
  · exact ⟨u, h1, .inr (.inl h2)⟩
  · exact ⟨u, h1, .inr (.inr (.inl h2))⟩
  · exact ⟨u, h1, .inr (.inr (.inr (.inl h2)))⟩
  rw [← hist, ← hist] at h2
  obtain ⟨s, h4, h5⟩ := got_at _ h1 h2 h3
  obtain ⟨o₁, h6, h7⟩ := net_ep_act h5
  obtain ⟨s', o₂, h8, h9, h10⟩ := hans s o₁ h4 h6 h7
  obtain ⟨v, h11, h12⟩ := hi j (s' + 1)
  rw [← hist] at h12
  obtain ⟨w, h13, h15, h14⟩ := call_ends _ (net_act_ep h9 h10) h11 h12
  have lift : ∀ {P : Rt.Ep.Action → Prop}, (Node.epRun (nodeRun r n)).Does w P →
      r.Does w (At n fun y => ∃ x, y = .app x ∧ P x) := by
    rintro P ⟨y, z, h3, h4⟩
    obtain ⟨o', h5, -⟩ := net_ep_act h3
    exact ⟨_, o', h5, rfl, y, rfl, h4⟩
  have htw : t ≤ w := by omega
  simp only [hist] at h15
  have hts : t ≤ s' := by omega
  rcases h14 with ⟨c', g1, g2⟩ | (⟨e, g1⟩ | ⟨y', e, g1⟩) | g1 | g1
  · obtain ⟨o₃, g3, g4⟩ := net_ep_act g1
    rw [hist] at g2
    obtain ⟨e, he, -⟩ := r.segment htw
    have g5 : app (at_ a (r.hist w)) = app (at_ a (r.hist t)) ++ app (at_ a e) := by
      simp only [he, at_, app, List.filterMap_append]
    have g6 : Shown (app (at_ a (r.hist w))) (.proxying p i' id' n) := by
      obtain ⟨z, h5⟩ := hk'
      exact ⟨z, by rw [g5]; exact List.mem_append_left _ h5⟩
    obtain ⟨u', g7, g8⟩ := C135_reply hn ha (hf.send c') hfa hpa hia hba hwa g2 g6 g3 g4 hl' hm' hid'
    refine ⟨u', by omega, ?_⟩
    rcases g8 with g8 | g8 | g8 | g8 | g8 | ⟨q', g8, g9⟩
    · refine .inr (.inr (.inr (.inr (.inr (.inl ⟨c', ?_, g8⟩)))))
      obtain ⟨e', he', -⟩ := r.segment g7
      obtain ⟨z, g2⟩ := g2
      refine ⟨z, ?_⟩
      have : app (at_ n (r.hist u')) = app (at_ n (r.hist w)) ++ app (at_ n e') := by
        simp only [he', at_, app, List.filterMap_append]
      rw [this]
      exact List.mem_append_left _ g2
    · exact .inr (.inr (.inr (.inr (.inr (.inr (.inl g8))))))
    · simp only [he, at_, socket, List.filterMap_append, List.flatMap_append] at g8
      exact .inr (.inr (.inr (.inr (.inr (.inr (.inr (.inl g8.since)))))))
    · exact .inr (.inr (.inr (.inr (.inr (.inr (.inr (.inr (.inl g8))))))))
    · exact .inr (.inr (.inr (.inr (.inr (.inr (.inr (.inr (.inr (.inl ⟨by omega, g8⟩)))))))))
    · refine .inr (.inr (.inr (.inr (.inr (.inr (.inr (.inr (.inr (.inr ⟨proxyGot p (app (at_ a e)) ++ q', ?_, ?_⟩)))))))))
      · rw [g8, g5, proxyGot, proxyGot, proxyGot, List.filterMap_append, List.append_assoc]
      · exact List.mem_append_right _ g9
  · obtain ⟨o₃, g3, g4⟩ := net_ep_act g1
    exact ⟨w, htw, .inr (.inr (.inr (.inr (.inl ⟨s', o₂, hts, h13, h9, h15, .inl ⟨o₃, e, g3, g4⟩⟩))))⟩
  · obtain ⟨o₃, g3, g4⟩ := net_ep_act g1
    exact ⟨w, htw, .inr (.inr (.inr (.inr (.inl ⟨s', o₂, hts, h13, h9, h15, .inr (.inl ⟨y', o₃, e, g3, g4⟩)⟩))))⟩
  · obtain ⟨z, o', g3, g4, z', g5, rfl⟩ := lift g1
    exact ⟨w, htw, .inr (.inr (.inr (.inr (.inl ⟨s', o₂, hts, h13, h9, h15, .inr (.inr (.inl ⟨z, o', g3, g4, g5⟩))⟩))))⟩
  · obtain ⟨z, o', g3, g4, z', g5, rfl⟩ := lift g1
    exact ⟨w, htw, .inr (.inr (.inr (.inr (.inl ⟨s', o₂, hts, h13, h9, h15, .inr (.inr (.inr ⟨z, o', g3, g4, g5⟩))⟩))))⟩

/-- **C137.** A client asks a server over UDP: the program at `a` has put `m` into the queue of a connection to `n`,
where a stub was made for the interface of `m`, and the user at `n` answers `m` with `x`. A proxy at `a` was made for
`n` and the interface of `x`. If nobody is passed over at both, the users read from all handles and their calls of
`send_to` come to an end, and the network carries everything between the two, then the proxy returns `x` at some time
after `m` was sent. The exceptions can be seen: a connection between the two was closed, a socket has failed or shows
what became of the datagram, the stub or the proxy was dropped, the proxy was cut off from its remote, or the server's
call of `send_to` with the answer returned an error or was given up. -/
theorem C137_round_trip {a n : Addr} {c t k j i p i' : Nat} {id id' : InterfaceId} {m x : Msg} {y : Rt.Ep.Action}
    {o : Node.Obs} (ha : own a = true) (hn : own n = true) (hf : Fair r n) (hp : Polled r n) (hi : CallsEnd r n)
    (hb : Settles r n) (hfa : Fair r a) (hpa : Polled r a) (hia : CallsEnd r a) (hba : Settles r a)
    (hw : Carries r a n) (hwa : Carries r n a)
    (hc : Shown (app (at_ a (r.hist t))) (.opened c n)) (hk : Shown (app (at_ n (r.hist t))) (.serving k i id))
    (hk' : Shown (app (at_ a (r.hist t))) (.proxying p i' id' n))
    (h : r.act t = some ((a, .app y), o)) (ho : o.ep = some (.accepted c m))
    (hl : 16 + m.payload.length ≤ 1400) (hm : Normal m) (hid : For m id)
    (hans : Answers r n t k j m x a)
    (hl' : 16 + x.payload.length ≤ 1400) (hm' : Normal x) (hid' : For x id') :
    ∃ u, t ≤ u ∧ (ConnOver c (app (at_ a (r.hist u))) ∨ (.failure, .none) ∈ socket (at_ n (r.hist u)) ∨
      Mishap a (frame m) (socket (at_ n (r.hist t))) (socket (at_ n (r.hist u))) ∨
      (.dropStub k, .none) ∈ app (at_ n (r.hist u)) ∨
      GivenUp r n t j a x u ∨
      (∃ c', Shown (app (at_ n (r.hist u))) (.opened c' a) ∧ ConnOver c' (app (at_ n (r.hist u)))) ∨
      (.failure, .none) ∈ socket (at_ a (r.hist u)) ∨
      Mishap n (frame x) (socket (at_ a (r.hist t))) (socket (at_ a (r.hist u))) ∨
      (.dropProxy p, .none) ∈ app (at_ a (r.hist u)) ∨ CutOff (at_ a (r.hist u)) p n ∨
      ∃ q, proxyGot p (app (at_ a (r.hist u))) = proxyGot p (app (at_ a (r.hist t))) ++ q ∧ x ∈ q) := by
  obtain ⟨u, h1, h2⟩ := round_trip ha hn hf hp hi hb hfa hpa hia hba hw hwa hc hk hk' h ho hl hm hid hans hl' hm' hid'
  exact ⟨u, h1, h2.imp_right (.imp_right (.imp_right (.imp_right (.imp_right (.imp_right (.imp_right (.imp_right
    (.imp_right (.imp_left And.right)))))))))⟩

/-- **C137.** The same for a client that asks with the proxy that is to return the answer: the proxy is not cut off
from its remote as long as the connection is not closed on which it has sent the question. -/
theorem C137_ask {a n : Addr} {c t k j i p i' : Nat} {id id' : InterfaceId} {m x : Msg}
    {o : Node.Obs} (ha : own a = true) (hn : own n = true) (hf : Fair r n) (hp : Polled r n) (hi : CallsEnd r n)
    (hb : Settles r n) (hfa : Fair r a) (hpa : Polled r a) (hia : CallsEnd r a) (hba : Settles r a)
    (hw : Carries r a n) (hwa : Carries r n a) (hk : Shown (app (at_ n (r.hist t))) (.serving k i id))
    (hk' : Shown (app (at_ a (r.hist t))) (.proxying p i' id' n))
    (h : r.act t = some ((a, .app (.proxySend p m)), o)) (ho : o.ep = some (.accepted c m))
    (hl : 16 + m.payload.length ≤ 1400) (hm : Normal m) (hid : For m id)
    (hans : Answers r n t k j m x a)
    (hl' : 16 + x.payload.length ≤ 1400) (hm' : Normal x) (hid' : For x id') :
    ∃ u, t ≤ u ∧ (ConnOver c (app (at_ a (r.hist u))) ∨ (.failure, .none) ∈ socket (at_ n (r.hist u)) ∨
      Mishap a (frame m) (socket (at_ n (r.hist t))) (socket (at_ n (r.hist u))) ∨
      (.dropStub k, .none) ∈ app (at_ n (r.hist u)) ∨
      GivenUp r n t j a x u ∨
      (∃ c', Shown (app (at_ n (r.hist u))) (.opened c' a) ∧ ConnOver c' (app (at_ n (r.hist u)))) ∨
      (.failure, .none) ∈ socket (at_ a (r.hist u)) ∨
      Mishap n (frame x) (socket (at_ a (r.hist t))) (socket (at_ a (r.hist u))) ∨
      (.dropProxy p, .none) ∈ app (at_ a (r.hist u)) ∨
      ∃ q, proxyGot p (app (at_ a (r.hist u))) = proxyGot p (app (at_ a (r.hist t))) ++ q ∧ x ∈ q) := by
  have g1 : app (at_ a (r.hist (t + 1))) = app (at_ a (r.hist t)) ++ [(.proxySend p m, .accepted c m)] := by
    simp only [r.hist_succ, h, Option.toList_some, at_, app, List.filterMap_append]
    simp [ho]
  have hc : Shown (app (at_ a (r.hist t))) (.opened c n) := by
    have e := (Node.parts ((each (r.exec (t + 1))).1 a)).1
    have e' := (Node.parts ((each (r.exec t)).1 a)).1
    rw [g1] at e
    obtain ⟨-, i₁, id₁, n₁, h1, h2⟩ := C73_proxy e
    have h3 := ((Rt.Ep.made e').proxy p i₁ id₁ n₁ h1).2.2.1
    rw [((Rt.Ep.made e').proxy p i' id' n hk').2.2.1] at h3
    rwa [h3]
  obtain ⟨u, h1, h2⟩ := round_trip ha hn hf hp hi hb hfa hpa hia hba hw hwa hc hk hk' h ho hl hm hid hans hl' hm' hid'
  refine ⟨u, h1, ?_⟩
  rcases h2 with h2 | h2 | h2 | h2 | h2 | h2 | h2 | h2 | h2 | ⟨h2, h3⟩ | h2
  · exact .inl h2
  · exact .inr (.inl h2)
  · exact .inr (.inr (.inl h2))
  · exact .inr (.inr (.inr (.inl h2)))
  · exact .inr (.inr (.inr (.inr (.inl h2))))
  · exact .inr (.inr (.inr (.inr (.inr (.inl h2)))))
  · exact .inr (.inr (.inr (.inr (.inr (.inr (.inl h2))))))
  · exact .inr (.inr (.inr (.inr (.inr (.inr (.inr (.inl h2)))))))
  · exact .inr (.inr (.inr (.inr (.inr (.inr (.inr (.inr (.inl h2))))))))
  · refine .inl (h3.2 c m m ?_)
    obtain ⟨e, he, -⟩ := r.segment (show t + 1 ≤ u from h2)
    have : app (at_ a (r.hist u)) = app (at_ a (r.hist (t + 1))) ++ app (at_ a e) := by
      simp only [he, at_, app, List.filterMap_append]
    rw [this, g1]
    simp
  · exact .inr (.inr (.inr (.inr (.inr (.inr (.inr (.inr (.inr h2))))))))

/-- What happens in a run that comes to rest is at its place in the whole history. -/
theorem rest_index {tr : Spec.Net.Trace} {s : State} {t : Nat} {x : Action × Node.Obs}
    (r3 : ∀ t, tr.length ≤ t → r.state t = s ∧ r.hist t = tr) (h : r.act t = some x) :
    tr[(r.hist t).length]? = some x ∧ r.hist t = tr.take (r.hist t).length := by
  obtain ⟨v, h1, -⟩ := r.segment (Nat.le_max_left (t + 1) tr.length)
  rw [(r3 _ (Nat.le_max_right ..)).2, r.hist_succ, h, Option.toList_some, List.append_assoc] at h1
  rw [h1]
  simp

/-- The conversation of C133: the client asks, with the proxy that returns the answer; the server answers. -/
example : ∃ (r : Run two) (t : Nat) (o : Node.Obs), (∀ n, two n = true → Fair r n ∧ Settles r n ∧ Polled r n ∧
    CallsEnd r n) ∧ Carries r 5 6 ∧ Carries r 6 5 ∧ Shown (app (at_ 5 (r.hist t))) (.opened 0 6) ∧
    Shown (app (at_ 6 (r.hist t))) (.serving 0 0 ⟨1, 1⟩) ∧ Shown (app (at_ 5 (r.hist t))) (.proxying 0 0 ⟨1, 1⟩ 6) ∧
    r.act t = some ((5, .app (.proxySend 0 Ep.msgA)), o) ∧ o.ep = some (.accepted 0 Ep.msgA) ∧
    (Normal Ep.msgA ∧ For Ep.msgA ⟨1, 1⟩ ∧ Normal answerA ∧ For answerA ⟨1, 1⟩) ∧
    Answers r 6 t 0 0 Ep.msgA answerA 5 ∧ proxyGot 0 (app (at_ 5 (r.hist t))) = [] ∧
    ∃ u, proxyGot 0 (app (at_ 5 (r.hist u))) = [answerA] := by
  obtain ⟨tr, s, e, h⟩ := exec_by (step := step two) (s := init) talk
    (fun (tr : Spec.Net.Trace) s => calmNode (s.nodes 5) && calmNode (s.nodes 6) && allArrive 5 6 tr &&
      allArrive 6 5 tr && decide (
      (∀ n ∈ ([5, 6] : List Addr), (∀ k, k < (s.nodes n).ep.stubCount → ((s.nodes n).ep.stubs k).pc = .idle)) ∧
      tr[15]? = some ((5, Node.Action.app (.proxySend 0 Ep.msgA)),
        (⟨some (.accepted 0 Ep.msgA), [], []⟩ : Node.Obs)) ∧
      (app (at_ 5 (tr.take 15))).any (fun x => decide (x.2 = .opened 0 6)) = true ∧
      (app (at_ 6 (tr.take 15))).any (fun x => decide (x.2 = .serving 0 0 ⟨1, 1⟩)) = true ∧
      (app (at_ 5 (tr.take 15))).any (fun x => decide (x.2 = .proxying 0 0 ⟨1, 1⟩ 6)) = true) && decide (
      tr[30]? = some ((6, Node.Action.app (.stubSend 0 5 answerA)), (⟨some .none, [], []⟩ : Node.Obs)) ∧
      (∀ i, i < tr.length → 30 ≤ i → tr[i]?.map Prod.fst ≠ some (6, Node.Action.app (.stubRecv 0))) ∧
      proxyGot 0 (app (at_ 5 (tr.take 15))) = [] ∧ proxyGot 0 (app (at_ 5 tr)) = [answerA]))
    (by decide +kernel)
  simp only [Bool.and_eq_true, decide_eq_true_eq] at h
  obtain ⟨⟨⟨⟨⟨g1, g2⟩, g3⟩, g3'⟩, g4, g5, g6, g7, g8⟩, g9, g10, g11, g12⟩ := h
  have hg := fun n => (Rt.Ep.good_hist (Node.parts ((each e).1 n)).1).1
  have k5 := calm_still (hg 5) g1
  have k6 := calm_still (hg 6) g2
  have hown : ∀ n, two n = true → n = 5 ∨ n = 6 := fun n hn => by
    simpa only [two, Bool.or_eq_true, decide_eq_true_eq] using hn
  obtain ⟨r, r1, r2, r4, r3⟩ := udp_net_rests e (fun n hn => by
    rcases hown n hn with rfl | rfl
    · exact k5.1
    · exact k6.1)
  obtain ⟨t, h7, h8⟩ := rest_act r3 g5
  obtain ⟨t', h9, h10⟩ := rest_act r3 g9
  have shown : ∀ {tr : Spec.Ep.Trace} {w : Rt.Ep.Obs}, tr.any (fun x => decide (x.2 = w)) = true → Shown tr w := by
    intro tr w h
    obtain ⟨⟨y, w'⟩, h9, h10⟩ := List.any_eq_true.mp h
    simp only [decide_eq_true_eq] at h10
    exact ⟨y, by rw [← h10]; exact h9⟩
  refine ⟨r, t, _, fun n hn => ⟨r1 n hn, r2 n, ⟨fun k => r4 n hn _ ?_, fun p => r4 n hn _ ?_⟩,
    fun k N => ⟨max N tr.length, Nat.le_max_left .., ?_⟩⟩, rest_carries r3 g3, rest_carries r3 g3',
    by rw [h7]; exact shown g6, by rw [h7]; exact shown g7, by rw [h7]; exact shown g8, h8, rfl,
    by unfold Normal For; decide, fun u o _ h11 _ => ⟨t', _, ?_, h10, rfl⟩, by rw [h7]; exact g11, tr.length,
    by rw [(r3 _ (Nat.le_refl _)).2]; exact g12⟩
  · rintro x rfl
    rcases hown n hn with rfl | rfl
    · exact k5.2.1 k
    · exact k6.2.1 k
  · rintro x rfl
    rcases hown n hn with rfl | rfl
    · exact k5.2.2 p
    · exact k6.2.2 p
  · rw [(r3 _ (Nat.le_max_right ..)).2]
    refine (Rt.Ep.idle_iff (Node.parts ((each e).1 n)).1 k).mp ?_
    rcases Nat.lt_or_ge k (s.nodes n).ep.stubCount with h | h
    · exact g4 n (by rcases hown n hn with rfl | rfl <;> simp) k h
    · rw [(hg n).fresh.stubs k h]
  · obtain ⟨h12, -⟩ := rest_index r3 h11
    refine Nat.lt_of_not_ge fun hle => ?_
    obtain ⟨v, h13, -⟩ := r.segment hle
    have hlt : (r.hist u).length < tr.length := (List.getElem?_eq_some_iff.mp h12).1
    have h14 : 30 ≤ (r.hist u).length := by
      rw [h13, h9, List.length_append, List.length_take]
      have : 30 < tr.length := (List.getElem?_eq_some_iff.mp g9).1
      omega
    exact g10 _ hlt h14 (by rw [h12]; rfl)

end

/-! ### Over TCP -/

section
open Rt Rt.TcpNet Spec Spec.Ep Spec.TcpNet Someip
open Spec.TcpNode (app Plain Whole Broke)
open Spec.Node (reads)

variable {own : Addr → Bool} {r : Run own}

/-- From time `t` on, the user at `n` answers `m` with `x`: whenever stub `k` has returned `m` with sender `a`, stub
`j` calls `send_to` with `a` and `x` at some later time. -/
def Spec.TcpNet.Answers (r : Run own) (n : Addr) (t k j : Nat) (m x : Msg) (a : Addr) : Prop :=
  ∀ s y i o, t ≤ s → r.act s = some ((n, y, i), o) → o.ep = some (.stubRecv k, .message m a) →
    ∃ s' y' i' o', s < s' ∧ r.act s' = some ((n, y', i'), o') ∧ o'.ep = some (.stubSend j a x, .none)

/-- What `C137_tcp_partial` says, about the two ends of the model's connections. -/
theorem tcp_round_trip (hf : Fair r) {a n : Addr} (hn : own n = true) (ha : own a = true) (hb : Settles r n)
    (hp : Polled r n) (hi : CallsEnd r n) (hba : Settles r a) (hpa : Polled r a) (hia : CallsEnd r a) :
    ∀ t t' c d, (r.state t').peer n c = some (a, d) →
      (∀ u, (∀ m ∈ accepted d (app (at_ a (r.hist u))), Plain m) ∧
        (∀ m ∈ accepted c (app (at_ n (r.hist u))), Plain m) ∧
        (∀ b ∈ reads c (app (at_ n (r.hist u))), Whole b) ∧ ∀ b ∈ reads d (app (at_ a (r.hist u))), Whole b) →
      ∀ k i id p i' id', Shown (app (at_ n (r.hist t))) (.serving k i id) →
        Shown (app (at_ a (r.hist t))) (.proxying p i' id' n) →
        ∀ y z v o m, r.act t = some ((a, y, v), o) → o.ep = some (z, .accepted d m) → For m id →
          ∀ j x l, Answers r n t k j m x a → For x id' →
            (∀ s y i o, t ≤ s → r.act s = some ((n, y, i), o) → o.ep = some (.stubSend j a x, .none) →
              Home (app (at_ n (r.hist s))) l c a) →
            ∃ u, t ≤ u ∧ (Useless n c a d (r.hist u) ∨ Useless a d n c (r.hist u) ∨
              (.dropStub k, .none) ∈ app (at_ n (r.hist u)) ∨
              (∃ l, (.acceptNone l, .ended) ∈ app (at_ n (r.hist u))) ∨
              ¬ Serving (app (at_ n (r.hist u))) l c ∨
              (∃ s y i o, t ≤ s ∧ s < u ∧ r.act s = some ((n, y, i), o) ∧ o.ep = some (.stubSend j a x, .none) ∧
                Disturbed r n s j a u) ∨
              (.dropProxy p, .none) ∈ app (at_ a (r.hist u)) ∨
              t < u ∧ Spec.TcpNode.CutOff p n (at_ a (r.hist u)) ∨
              ∃ q, proxyGot p (app (at_ a (r.hist u))) = proxyGot p (app (at_ a (r.hist t))) ++ q ∧ x ∈ q) := by
  intro t t' c d h1 h2 k i id p i' id' hk hk' y z v o m h ho hid j x l hans hid' hh
  have hist : ∀ t, (TcpNode.epRun (nodeRun r n)).hist t = app (at_ n (r.hist t)) := fun t => by
    rw [TcpNode.epRun_hist, nodeRun_hist]
  obtain ⟨u, h3, h4⟩ := tcp_request hf (tcp_net_polled hn hp hi) hb t t' c a d h1 (fun u => (h2 u).1)
    (fun u => (h2 u).2.2.1) k i id (hp.stubs k) hk y z v o m h ho hid
  rcases h4 with h4 | h4 | h4 | ⟨q, h4, h5⟩
  · exact ⟨u, h3, .inl h4⟩
  · exact ⟨u, h3, .inr (.inr (.inl h4))⟩
  · exact ⟨u, h3, .inr (.inr (.inr (.inl h4)))⟩
  rw [← hist, ← hist] at h4
  obtain ⟨s, h6, h7⟩ := got_at _ h3 h4 h5
  obtain ⟨y₁, j₁, o₁, h8, h9⟩ := tcp_ep_act h7
  obtain ⟨s', y₂, j₂, o₂, h10, h11, h12⟩ := hans s y₁ j₁ o₁ h6 h8 h9
  obtain ⟨e, he, -⟩ := r.segment (show t ≤ s' by omega)
  have g1 : app (at_ a (r.hist s')) = app (at_ a (r.hist t)) ++ app (at_ a e) := by
    rw [he, at_append, tcp_app_append]
  have g2 : Shown (app (at_ a (r.hist s'))) (.proxying p i' id' n) := by
    obtain ⟨z, h8⟩ := hk'
    exact ⟨z, by rw [g1]; exact List.mem_append_left _ h8⟩
  have hl := linked (r.exec t')
  obtain ⟨w, g3, g4⟩ := tcp_answer hf hn ha hb hpa hia hba s' t' d c (hl.symm n c a d h1) (fun u => (h2 u).2.1)
    (fun u => (h2 u).2.2.2) p i' id' g2 j l x y₂ j₂ o₂ h11 h12 hid' (hh s' y₂ j₂ o₂ (by omega) h11 h12)
  refine ⟨w, by omega, ?_⟩
  rcases g4 with g4 | g4 | g4 | g4 | g4 | ⟨q', g4, g5⟩
  · exact .inr (.inr (.inr (.inr (.inl g4))))
  · exact .inr (.inr (.inr (.inr (.inr (.inl ⟨s', y₂, j₂, o₂, by omega, g3, h11, h12, g4⟩)))))
  · exact .inr (.inl g4)
  · exact .inr (.inr (.inr (.inr (.inr (.inr (.inl g4))))))
  · exact .inr (.inr (.inr (.inr (.inr (.inr (.inr (.inl ⟨by omega, g4⟩)))))))
  · refine .inr (.inr (.inr (.inr (.inr (.inr (.inr (.inr ⟨proxyGot p (app (at_ a e)) ++ q', ?_, ?_⟩)))))))
    · rw [g4, g1, proxyGot, proxyGot, proxyGot, List.filterMap_append, List.append_assoc]
    · exact List.mem_append_right _ g5

/-- **C137**, the part about programs connected by TCP that holds. The program at `a` has put `m` into the queue of its
connection `d`, the other end of which is or will be connection `c` of the program at `n`, where a stub was made for
the interface of `m`. The user at `n` answers `m` with `x`; when they call `send_to`, connection `c` was registered as
in C115. A proxy at `a` was made for `n` and the interface of `x`. If nobody is passed over, the users at both read
from all handles and their calls of `send_to` come to an end, the reads on both ends of the connection end between
messages, and the messages sent on it can be expressed in the format, then the proxy returns `x` at some time after
`m` was sent. The exceptions: the connection breaks or ends, the stub or the proxy is dropped, accepting connections
has failed or the listener has ended, the operating system at `a` has reported an error on a connection to `n`, the
only one on which the proxy has sent, if any, or, while the call of `send_to` with the answer goes on, it is given up or
somebody connects from `a` anew. What is missing: reads that end inside a message (`C128_false`). -/
theorem C137_tcp_partial (hf : Fair r) {a n : Addr} (hn : own n = true) (ha : own a = true) (hb : Settles r n)
    (hp : Polled r n) (hi : CallsEnd r n) (hba : Settles r a) (hpa : Polled r a) (hia : CallsEnd r a) :
    ∃ pair : Nat → Addr → Nat → Option (Addr × Nat), Coupled r pair ∧
      ∀ t t' c d, pair t' n c = some (a, d) →
        (∀ u, (∀ m ∈ accepted d (app (at_ a (r.hist u))), Plain m) ∧
          (∀ m ∈ accepted c (app (at_ n (r.hist u))), Plain m) ∧
          (∀ b ∈ reads c (app (at_ n (r.hist u))), Whole b) ∧ ∀ b ∈ reads d (app (at_ a (r.hist u))), Whole b) →
        ∀ k i id p i' id', Shown (app (at_ n (r.hist t))) (.serving k i id) →
          Shown (app (at_ a (r.hist t))) (.proxying p i' id' n) →
          ∀ y z v o m, r.act t = some ((a, y, v), o) → o.ep = some (z, .accepted d m) → For m id →
            ∀ j x l, Answers r n t k j m x a → For x id' →
              (∀ s y i o, t ≤ s → r.act s = some ((n, y, i), o) → o.ep = some (.stubSend j a x, .none) →
                Home (app (at_ n (r.hist s))) l c a) →
              ∃ u, t ≤ u ∧ (Useless n c a d (r.hist u) ∨ Useless a d n c (r.hist u) ∨
                (.dropStub k, .none) ∈ app (at_ n (r.hist u)) ∨
                (∃ l, (.acceptNone l, .ended) ∈ app (at_ n (r.hist u))) ∨
                ¬ Serving (app (at_ n (r.hist u))) l c ∨
                (∃ s y i o, t ≤ s ∧ s < u ∧ r.act s = some ((n, y, i), o) ∧ o.ep = some (.stubSend j a x, .none) ∧
                  Disturbed r n s j a u) ∨
                (.dropProxy p, .none) ∈ app (at_ a (r.hist u)) ∨
                Spec.TcpNode.CutOff p n (at_ a (r.hist u)) ∨
                ∃ q, proxyGot p (app (at_ a (r.hist u))) = proxyGot p (app (at_ a (r.hist t))) ++ q ∧ x ∈ q) := by
  refine ⟨fun t => (r.state t).peer, run_coupled r, ?_⟩
  intro t t' c d h1 h2 k i id p i' id' hk hk' y z v o m h ho hid j x l hans hid' hh
  obtain ⟨u, h3, h4⟩ := tcp_round_trip hf hn ha hb hp hi hba hpa hia t t' c d h1 h2 k i id p i' id' hk hk' y z v o m h ho
    hid j x l hans hid' hh
  refine ⟨u, h3, h4.imp_right fun h4 => h4.imp_right fun h4 => h4.imp_right fun h4 => h4.imp_right fun h4 =>
    h4.imp_right fun h4 => h4.imp_right fun h4 => h4.imp_right fun h4 => h4.imp_left fun h4 => h4.2⟩

/-- **C137**, the part about programs connected by TCP that holds, if the client asks with the proxy itself: as before,
but errors on other connections are no excuse. What is missing: as before. -/
theorem C137_tcp_ask_partial (hf : Fair r) {a n : Addr} (hn : own n = true) (ha : own a = true) (hb : Settles r n)
    (hp : Polled r n) (hi : CallsEnd r n) (hba : Settles r a) (hpa : Polled r a) (hia : CallsEnd r a) :
    ∃ pair : Nat → Addr → Nat → Option (Addr × Nat), Coupled r pair ∧
      ∀ t t' c d, pair t' n c = some (a, d) →
        (∀ u, (∀ m ∈ accepted d (app (at_ a (r.hist u))), Plain m) ∧
          (∀ m ∈ accepted c (app (at_ n (r.hist u))), Plain m) ∧
          (∀ b ∈ reads c (app (at_ n (r.hist u))), Whole b) ∧ ∀ b ∈ reads d (app (at_ a (r.hist u))), Whole b) →
        ∀ k i id p i' id', Shown (app (at_ n (r.hist t))) (.serving k i id) →
          Shown (app (at_ a (r.hist t))) (.proxying p i' id' n) →
          ∀ y m₀ v o m, r.act t = some ((a, y, v), o) → o.ep = some (.proxySend p m₀, .accepted d m) → For m id →
            ∀ j x l, Answers r n t k j m x a → For x id' →
              (∀ s y i o, t ≤ s → r.act s = some ((n, y, i), o) → o.ep = some (.stubSend j a x, .none) →
                Home (app (at_ n (r.hist s))) l c a) →
              ∃ u, t ≤ u ∧ (Useless n c a d (r.hist u) ∨ Useless a d n c (r.hist u) ∨
                (.dropStub k, .none) ∈ app (at_ n (r.hist u)) ∨
                (∃ l, (.acceptNone l, .ended) ∈ app (at_ n (r.hist u))) ∨
                ¬ Serving (app (at_ n (r.hist u))) l c ∨
                (∃ s y i o, t ≤ s ∧ s < u ∧ r.act s = some ((n, y, i), o) ∧ o.ep = some (.stubSend j a x, .none) ∧
                  Disturbed r n s j a u) ∨
                (.dropProxy p, .none) ∈ app (at_ a (r.hist u)) ∨
                ∃ q, proxyGot p (app (at_ a (r.hist u))) = proxyGot p (app (at_ a (r.hist t))) ++ q ∧ x ∈ q) := by
  refine ⟨fun t => (r.state t).peer, run_coupled r, ?_⟩
  intro t t' c d h1 h2 k i id p i' id' hk hk' y m₀ v o m h ho hid j x l hans hid' hh
  obtain ⟨u, h3, h4⟩ := tcp_round_trip hf hn ha hb hp hi hba hpa hia t t' c d h1 h2 k i id p i' id' hk hk' y _ v o m h ho
    hid j x l hans hid' hh
  refine ⟨u, h3, ?_⟩
  rcases h4 with h4 | h4 | h4 | h4 | h4 | h4 | h4 | ⟨h4, e, -, h5, h6⟩ | h4
  · exact .inl h4
  · exact .inr (.inl h4)
  · exact .inr (.inr (.inl h4))
  · exact .inr (.inr (.inr (.inl h4)))
  · exact .inr (.inr (.inr (.inr (.inl h4))))
  · exact .inr (.inr (.inr (.inr (.inr (.inl h4)))))
  · exact .inr (.inr (.inr (.inr (.inr (.inr (.inl h4))))))
  · have g1 := tcp_act_ep h ho
    obtain ⟨w, g2, -⟩ := (TcpNode.epRun (nodeRun r a)).segment (show t + 1 ≤ u from h4)
    rw [(TcpNode.epRun (nodeRun r a)).hist_succ, g1, TcpNode.epRun_hist, nodeRun_hist] at g2
    cases h6 d m₀ m (by rw [g2]; simp)
    exact .inl (.inl h5)
  · exact .inr (.inr (.inr (.inr (.inr (.inr (.inr h4))))))

/-- The conversation of C134: the client asks, with the proxy, the server answers. -/
example : ∃ (r : Run Spec.Net.two) (t : Nat) (o : TcpNode.Obs), Fair r ∧
    (∀ n, Spec.Net.two n = true → Settles r n ∧ Polled r n ∧ CallsEnd r n) ∧
    (∃ t l, (.accept l 5, .opened 0 5) ∈ app (at_ 6 (r.hist t))) ∧
    (∀ t, ¬ Useless 6 0 5 0 (r.hist t) ∧ ¬ Useless 5 0 6 0 (r.hist t)) ∧
    (∀ u, (∀ m ∈ accepted 0 (app (at_ 5 (r.hist u))), Plain m) ∧
      (∀ m ∈ accepted 0 (app (at_ 6 (r.hist u))), Plain m) ∧
      (∀ b ∈ reads 0 (app (at_ 6 (r.hist u))), Whole b) ∧ ∀ b ∈ reads 0 (app (at_ 5 (r.hist u))), Whole b) ∧
    Shown (app (at_ 6 (r.hist t))) (.serving 0 0 ⟨1, 1⟩) ∧ Shown (app (at_ 5 (r.hist t))) (.proxying 0 0 ⟨1, 1⟩ 6) ∧
    r.act t = some ((5, .app (.proxySend 0 Ep.msgA), 0), o) ∧
    o.ep = some (.proxySend 0 Ep.msgA, .accepted 0 Ep.msgA) ∧ For Ep.msgA ⟨1, 1⟩ ∧ For Spec.Net.answerA ⟨1, 1⟩ ∧
    Answers r 6 t 0 0 Ep.msgA Spec.Net.answerA 5 ∧
    (∀ s y i o, t ≤ s → r.act s = some ((6, y, i), o) → o.ep = some (.stubSend 0 5 Spec.Net.answerA, .none) →
      Home (app (at_ 6 (r.hist s))) 0 0 5) ∧ ∃ u, proxyGot 0 (app (at_ 5 (r.hist u))) = [Spec.Net.answerA] := by
  obtain ⟨r, h1, h2, h3, h4, h5, h6, h7, ⟨t, o, k1, k2, k3, k4⟩, -, h8, -, -, ⟨t', o', -, h10, h11, -, h12, h14⟩, u, -, h13⟩ :=
    tcp_talk
  exact ⟨r, t, o, h1, fun n hn => ⟨(h2 n hn).2, ⟨(h7 n hn).1, (h7 n hn).2.1⟩, (h7 n hn).2.2⟩, h3, h4,
    fun u => ⟨h5 5 rfl u 0, h5 6 rfl u 0, h6 6 rfl u, h6 5 rfl u⟩, k1, k4, k2, k3, h8.1, h8.2,
    fun s y i o'' _ g1 g2 => ⟨t', _, _, o', h12 s y i o'' g1 g2, h10, h11⟩, fun s y i o'' _ => h14 s y i o'', u, h13⟩

end

end Rsomeip
