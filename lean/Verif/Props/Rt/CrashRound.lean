import Verif.Props.Rt.Crash
import Verif.Props.Rt.LiveRound

/-! # C148: questions are answered again when crashes have come to an end -/

namespace Rsomeip

section
open Rt Rt.Crash Spec Spec.Crash Spec.Ep Someip
open Spec.Node (SendStep Mishap CutOff app socket)

variable {own : Addr → Bool} {r : Crash.Run own}

/-- From time `t` on, the user at `n` answers `m` with `x`: whenever stub `k` has returned `m` with sender `a`, stub
`j` calls `send_to` with `a` and `x` at some later time. -/
def Spec.Crash.Answers (r : Crash.Run own) (n : Addr) (t k j : Nat) (m x : Msg) (a : Addr) : Prop :=
  ∀ s o, t ≤ s → r.act s = some (.net (n, .app (.stubRecv k)), o) → o.ep = some (.message m a) →
    ∃ s' o', s < s' ∧ r.act s' = some (.net (n, .app (.stubSend j a x)), o') ∧ o'.ep = some .none

/-- Stub `j` at `n` has called `send_to` with `a` and `x`, not before time `t`, and while this call goes on, it returns
an error at time `u` or is given up. -/
def Spec.Crash.GivenUp (r : Crash.Run own) (n : Addr) (t j : Nat) (a : Addr) (x : Msg) (u : Nat) : Prop :=
  ∃ s o, t ≤ s ∧ s < u ∧ r.act s = some (.net (n, .app (.stubSend j a x)), o) ∧
    (∀ v, s < v → v ≤ u → inCall j (app (life n (r.hist v))) = true) ∧
    ((∃ o e, r.act u = some (.net (n, .app (.stubStep j)), o) ∧ o.ep = some (.sendFailed e)) ∨
      (∃ y o e, r.act u = some (.net (n, .app y), o) ∧ o.ep = some (.connectFailed j e)) ∨
      r.Does u (At n (· = .app (.stubCancel j))) ∨ r.Does u (At n (· = .app (.dropStub j))))

/-- At time `u` it can be seen why the question `m`, asked by the program at `a` on its connection `c` at time `t`, was
not answered with `x` by the program at `n`, where stub `k` receives the question and stub `j` sends the answer to
proxy `p`: a connection between the two was closed, a socket has failed or shows what became of the datagram,
the stub or the proxy was dropped, or the call of `send_to` with the answer returned an error or was given up. All this
in the present lives of the two programs. -/
def Spec.Crash.Hindered (r : Crash.Run own) (a n : Addr) (c t k j p : Nat) (m x : Msg) (u : Nat) : Prop :=
  ConnOver c (app (life a (r.hist u))) ∨ (.failure, .none) ∈ socket (life n (r.hist u)) ∨
  Mishap a (frame m) (socket (life n (r.hist t))) (socket (life n (r.hist u))) ∨
  (.dropStub k, .none) ∈ app (life n (r.hist u)) ∨
  GivenUp r n t j a x u ∨
  (∃ c', Shown (app (life n (r.hist u))) (.opened c' a) ∧ ConnOver c' (app (life n (r.hist u)))) ∨
  (.failure, .none) ∈ socket (life a (r.hist u)) ∨
  Mishap n (frame x) (socket (life a (r.hist t))) (socket (life a (r.hist u))) ∨
  (.dropProxy p, .none) ∈ app (life a (r.hist u))

/-- As before, or the proxy was cut off from its remote. -/
def Spec.Crash.Prevented (r : Crash.Run own) (a n : Addr) (c t k j p : Nat) (m x : Msg) (u : Nat) : Prop :=
  Hindered r a n c t k j p m x u ∨ CutOff (life a (r.hist u)) p n

theorem crash_ep_act {n : Addr} {T t : Nat} (b : Begins r n T) {x : Rt.Ep.Action} {w : Rt.Ep.Obs}
    (h : (Node.epRun (nodeRun r b)).act t = some (x, w)) :
    ∃ o, r.act t = some (.net (n, .app x), o) ∧ o.ep = some w := by
  obtain ⟨⟨y, o⟩, h1, h2⟩ := Option.bind_eq_some_iff.mp h
  cases y with
  | app z =>
    obtain ⟨v, h3, h4⟩ := Option.map_eq_some_iff.mp h2
    cases h4
    exact ⟨o, (nodeRun_act' b h1).2, h3⟩
  | _ => cases h2

theorem crash_act_ep {n : Addr} {T t : Nat} (b : Begins r n T) {x : Rt.Ep.Action} {o : Node.Obs} {w : Rt.Ep.Obs}
    (ht : T ≤ t) (h : r.act t = some (.net (n, .app x), o)) (ho : o.ep = some w) :
    (Node.epRun (nodeRun r b)).act t = some (x, w) := by
  show ((nodeRun r b).act t).bind _ = _
  rw [(nodeRun_act b ht).mpr h]
  show o.ep.map _ = _
  rw [ho]
  rfl

/-- What a program that does not crash any more has done stays in its history. -/
theorem crash_life_grows {n : Addr} {T t u : Nat} (b : Begins r n T) (ht : T ≤ t) (hu : t ≤ u) :
    ∃ v, life n (r.hist u) = life n (r.hist t) ++ v := by
  obtain ⟨v, hv, -⟩ := (nodeRun r b).segment hu
  exact ⟨v, by rw [← nodeRun_hist b ht, ← nodeRun_hist b (by omega), hv]⟩

/-- What `C148_round_trip` and `C148_ask` have in common. -/
theorem crash_round {a n : Addr} {c T t k j i p i' : Nat} {id id' : InterfaceId} {m x : Msg} {y : Rt.Ep.Action}
    {o : Node.Obs} (ha : own a = true) (hn : own n = true) (sa : Stays r a T) (sn : Stays r n T) (hT : T ≤ t)
    (hf : Fair r n) (hr : Read r n) (hb : Settles r n) (hg : r.FairTo (At n (· = .app (.stubRecv k))))
    (hi : ∀ N, ∃ v, N ≤ v ∧ inCall j (app (life n (r.hist v))) = false)
    (hfa : Fair r a) (hra : Read r a) (hba : Settles r a) (hga : r.FairTo (At a (· = .app (.proxyRecv p))))
    (hw : Carries r a n T) (hwa : Carries r n a T)
    (hc : Shown (app (life a (r.hist t))) (.opened c n)) (hk : Shown (app (life n (r.hist t))) (.serving k i id))
    (hk' : Shown (app (life a (r.hist t))) (.proxying p i' id' n))
    (h : r.act t = some (.net (a, .app y), o)) (ho : o.ep = some (.accepted c m))
    (hl : 16 + m.payload.length ≤ 1400) (hm : Normal m) (hid : For m id) (hans : Answers r n t k j m x a)
    (hl' : 16 + x.payload.length ≤ 1400) (hm' : Normal x) (hid' : For x id') :
    ∃ u, t ≤ u ∧ (Hindered r a n c t k j p m x u ∨ t < u ∧ CutOff (life a (r.hist u)) p n ∨
      ∃ q, proxyGot p (app (life a (r.hist u))) = proxyGot p (app (life a (r.hist t))) ++ q ∧ x ∈ q) := by
  obtain ⟨U, hU, ba⟩ := begins sa
  obtain ⟨V, hV, bn⟩ := begins sn
  have hist : ∀ u, t ≤ u → (Node.epRun (nodeRun r bn)).hist u = app (life n (r.hist u)) := fun u hu => by
    rw [Node.epRun_hist, nodeRun_hist bn (by omega)]
  obtain ⟨u, h1, h2⟩ := C139_request ha hn sa sn hT (hfa.send c) hf hr hb hw hg hc hk h ho hl hm hid
  rcases h2 with h2 | h2 | h2 | h2 | ⟨q, h2, h3⟩
  · exact ⟨u, h1, .inl (.inl h2)⟩
  · exact ⟨u, h1, .inl (.inr (.inl h2))⟩
  · exact ⟨u, h1, .inl (.inr (.inr (.inl h2)))⟩
  · exact ⟨u, h1, .inl (.inr (.inr (.inr (.inl h2))))⟩
  rw [← hist u h1, ← hist t (Nat.le_refl _)] at h2
  obtain ⟨s, h4, h5⟩ := got_at _ h1 h2 h3
  obtain ⟨o₁, h6, h7⟩ := crash_ep_act bn h5
  obtain ⟨s', o₂, h8, h9, h10⟩ := hans s o₁ h4 h6 h7
  obtain ⟨v, h11, h12⟩ := hi (s' + 1)
  rw [← hist v (by omega)] at h12
  obtain ⟨w, h13, h15, h14⟩ := call_ends _ (crash_act_ep bn (by omega) h9 h10) h11 h12
  have lift : ∀ {P : Rt.Ep.Action → Prop}, (Node.epRun (nodeRun r bn)).Does w P →
      r.Does w (At n fun y => ∃ x, y = .app x ∧ P x) := by
    rintro P ⟨y, z, h3, h4⟩
    obtain ⟨o', h5, -⟩ := crash_ep_act bn h3
    exact ⟨_, o', h5, _, rfl, y, rfl, h4⟩
  have htw : t ≤ w := by omega
  have hts : t ≤ s' := by omega
  have h15 : ∀ v, s' < v → v ≤ w → inCall j (app (life n (r.hist v))) = true := fun v g1 g2 => by
    rw [← hist v (by omega)]
    exact h15 v g1 g2
  rcases h14 with ⟨c', g1, g2⟩ | (⟨e, g1⟩ | ⟨y', e, g1⟩) | g1 | g1
  · obtain ⟨o₃, g3, g4⟩ := crash_ep_act bn g1
    rw [hist w htw] at g2
    obtain ⟨e, he⟩ := crash_life_grows ba (show U ≤ t by omega) htw
    have g5 : app (life a (r.hist w)) = app (life a (r.hist t)) ++ app e := by
      simp only [he, app, List.filterMap_append]
    have g6 : Shown (app (life a (r.hist w))) (.proxying p i' id' n) := by
      obtain ⟨z, h5⟩ := hk'
      exact ⟨z, by rw [g5]; exact List.mem_append_left _ h5⟩
    obtain ⟨u', g7, g8⟩ := C139_reply hn ha sn sa (show T ≤ w by omega) (hf.send c') hfa hra hba hwa hga g2 g6 g3 g4
      hl' hm' hid'
    refine ⟨u', by omega, ?_⟩
    rcases g8 with g8 | g8 | g8 | g8 | g8 | ⟨q', g8, g9⟩
    · refine .inl (.inr (.inr (.inr (.inr (.inr (.inl ⟨c', ?_, g8⟩))))))
      obtain ⟨e', he'⟩ := crash_life_grows bn (show V ≤ w by omega) g7
      obtain ⟨z, g2⟩ := g2
      refine ⟨z, ?_⟩
      have : app (life n (r.hist u')) = app (life n (r.hist w)) ++ app e' := by
        simp only [he', app, List.filterMap_append]
      rw [this]
      exact List.mem_append_left _ g2
    · exact .inl (.inr (.inr (.inr (.inr (.inr (.inr (.inl g8)))))))
    · simp only [he, socket, List.flatMap_append] at g8
      exact .inl (.inr (.inr (.inr (.inr (.inr (.inr (.inr (.inl g8.since))))))))
    · exact .inl (.inr (.inr (.inr (.inr (.inr (.inr (.inr (.inr g8))))))))
    · exact .inr (.inl ⟨by omega, g8⟩)
    · refine .inr (.inr ⟨proxyGot p (app e) ++ q', ?_, List.mem_append_right _ g9⟩)
      rw [g8, g5, proxyGot, proxyGot, proxyGot, List.filterMap_append, List.append_assoc]
  · obtain ⟨o₃, g3, g4⟩ := crash_ep_act bn g1
    exact ⟨w, htw, .inl (.inr (.inr (.inr (.inr (.inl ⟨s', o₂, hts, h13, h9, h15, .inl ⟨o₃, e, g3, g4⟩⟩)))))⟩
  · obtain ⟨o₃, g3, g4⟩ := crash_ep_act bn g1
    exact ⟨w, htw, .inl (.inr (.inr (.inr (.inr (.inl ⟨s', o₂, hts, h13, h9, h15, .inr (.inl ⟨y', o₃, e, g3, g4⟩)⟩)))))⟩
  · obtain ⟨z, o', g3, z₁, rfl, z', rfl, rfl⟩ := lift g1
    exact ⟨w, htw, .inl (.inr (.inr (.inr (.inr (.inl
      ⟨s', o₂, hts, h13, h9, h15, .inr (.inr (.inl ⟨_, o', g3, _, rfl, rfl⟩))⟩)))))⟩
  · obtain ⟨z, o', g3, z₁, rfl, z', rfl, rfl⟩ := lift g1
    exact ⟨w, htw, .inl (.inr (.inr (.inr (.inr (.inl
      ⟨s', o₂, hts, h13, h9, h15, .inr (.inr (.inr ⟨_, o', g3, _, rfl, rfl⟩))⟩)))))⟩

/-- **C148.** Programs may crash again and again before time `T`, but those at `a` and `n` do not afterwards. After
that the program at `a` puts `m` into the queue of a connection to `n`; both the connection and the proxy for the
answer may be older than the last crash of the program at `n`. A stub was made for the interface of `m` in the present
life of that program, whose user answers `m` with `x`. If nobody is passed over at both, their users read from the
handles, the calls of `send_to` with the answer come to an end, and the network loses nothing between the two from `T`
on, then the proxy returns `x` at some time after `m` was sent, or it can be seen what has prevented this. -/
theorem C148_round_trip {a n : Addr} {c T t k j i p i' : Nat} {id id' : InterfaceId} {m x : Msg} {y : Rt.Ep.Action}
    {o : Node.Obs} (ha : own a = true) (hn : own n = true) (sa : Stays r a T) (sn : Stays r n T) (hT : T ≤ t)
    (hf : Fair r n) (hr : Read r n) (hb : Settles r n) (hg : r.FairTo (At n (· = .app (.stubRecv k))))
    (hi : ∀ N, ∃ v, N ≤ v ∧ inCall j (app (life n (r.hist v))) = false)
    (hfa : Fair r a) (hra : Read r a) (hba : Settles r a) (hga : r.FairTo (At a (· = .app (.proxyRecv p))))
    (hw : Carries r a n T) (hwa : Carries r n a T)
    (hc : Shown (app (life a (r.hist t))) (.opened c n)) (hk : Shown (app (life n (r.hist t))) (.serving k i id))
    (hk' : Shown (app (life a (r.hist t))) (.proxying p i' id' n))
    (h : r.act t = some (.net (a, .app y), o)) (ho : o.ep = some (.accepted c m))
    (hl : 16 + m.payload.length ≤ 1400) (hm : Normal m) (hid : For m id) (hans : Answers r n t k j m x a)
    (hl' : 16 + x.payload.length ≤ 1400) (hm' : Normal x) (hid' : For x id') :
    ∃ u, t ≤ u ∧ (Prevented r a n c t k j p m x u ∨
      ∃ q, proxyGot p (app (life a (r.hist u))) = proxyGot p (app (life a (r.hist t))) ++ q ∧ x ∈ q) := by
  obtain ⟨u, h1, h2⟩ := crash_round ha hn sa sn hT hf hr hb hg hi hfa hra hba hga hw hwa hc hk hk' h ho hl hm hid hans
    hl' hm' hid'
  exact ⟨u, h1, h2.elim (fun h2 => .inl (.inl h2)) fun h2 => h2.imp_left fun h2 => .inr h2.2⟩

/-- **C148.** The same for a client that asks with the proxy that is to return the answer: the proxy is not cut off
from its remote as long as the connection is not closed on which it has sent the question. -/
theorem C148_ask {a n : Addr} {c T t k j i p i' : Nat} {id id' : InterfaceId} {m x : Msg} {o : Node.Obs} (ha : own a = true) (hn : own n = true) (sa : Stays r a T) (sn : Stays r n T) (hT : T ≤ t)
    (hf : Fair r n) (hr : Read r n) (hb : Settles r n) (hg : r.FairTo (At n (· = .app (.stubRecv k))))
    (hi : ∀ N, ∃ v, N ≤ v ∧ inCall j (app (life n (r.hist v))) = false)
    (hfa : Fair r a) (hra : Read r a) (hba : Settles r a) (hga : r.FairTo (At a (· = .app (.proxyRecv p))))
    (hw : Carries r a n T) (hwa : Carries r n a T)
    (hk : Shown (app (life n (r.hist t))) (.serving k i id))
    (hk' : Shown (app (life a (r.hist t))) (.proxying p i' id' n))
    (h : r.act t = some (.net (a, .app (.proxySend p m)), o)) (ho : o.ep = some (.accepted c m))
    (hl : 16 + m.payload.length ≤ 1400) (hm : Normal m) (hid : For m id) (hans : Answers r n t k j m x a)
    (hl' : 16 + x.payload.length ≤ 1400) (hm' : Normal x) (hid' : For x id') :
    ∃ u, t ≤ u ∧ (Hindered r a n c t k j p m x u ∨
      ∃ q, proxyGot p (app (life a (r.hist u))) = proxyGot p (app (life a (r.hist t))) ++ q ∧ x ∈ q) := by
  obtain ⟨U, hU, ba⟩ := begins sa
  have hist : ∀ u, t ≤ u → (Node.epRun (nodeRun r ba)).hist u = app (life a (r.hist u)) := fun u hu => by
    rw [Node.epRun_hist, nodeRun_hist ba (by omega)]
  have g0 := crash_act_ep ba (show U ≤ t by omega) h ho
  have g1 : app (life a (r.hist (t + 1))) = app (life a (r.hist t)) ++ [(.proxySend p m, .accepted c m)] := by
    rw [← hist _ (by omega), (Node.epRun (nodeRun r ba)).hist_succ, g0, hist t (Nat.le_refl _)]
    rfl
  have hc : Shown (app (life a (r.hist t))) (.opened c n) := by
    have e := (Node.epRun (nodeRun r ba)).exec (t + 1)
    have e' := (Node.epRun (nodeRun r ba)).exec t
    rw [hist _ (by omega), g1] at e
    rw [hist t (Nat.le_refl _)] at e'
    obtain ⟨-, i₁, id₁, n₁, h1, h2⟩ := C73_proxy e
    have h3 := ((Rt.Ep.made e').proxy p i₁ id₁ n₁ h1).2.2.1
    rw [((Rt.Ep.made e').proxy p i' id' n hk').2.2.1] at h3
    rwa [h3]
  obtain ⟨u, h1, h2⟩ := crash_round ha hn sa sn hT hf hr hb hg hi hfa hra hba hga hw hwa hc hk hk' h ho hl hm hid hans
    hl' hm' hid'
  refine ⟨u, h1, ?_⟩
  rcases h2 with h2 | ⟨h2, h3⟩ | h2
  · exact .inl h2
  · refine .inl (.inl (h3.2 c m m ?_))
    obtain ⟨e, he⟩ := crash_life_grows ba (show U ≤ t + 1 by omega) (show t + 1 ≤ u from h2)
    have : app (life a (r.hist u)) = app (life a (r.hist (t + 1))) ++ app e := by
      simp only [he, app, List.filterMap_append]
    rw [this, g1]
    simp
  · exact .inr h2

end

/-! ### A run with a crash -/

section
open Rt Rt.Crash Spec Spec.Crash Spec.Ep
open Spec.Net (two dialogue answerA talk once allArrive)
open Spec.Node (app socket)

/-- What happens in a run that comes to rest is at its place in the whole history. -/
theorem crash_index {own : Addr → Bool} {r : Crash.Run own} {tr : Crash.Trace} {s : Net.State} {t : Nat}
    {x : Action × Node.Obs} (r3 : ∀ t, tr.length ≤ t → r.state t = s ∧ r.hist t = tr ∧ r.act t = none)
    (h : r.act t = some x) : tr[(r.hist t).length]? = some x ∧ r.hist t = tr.take (r.hist t).length := by
  obtain ⟨v, h1, -⟩ := r.segment (Nat.le_max_left (t + 1) tr.length)
  rw [(r3 _ (Nat.le_max_right ..)).2.1, r.hist_succ, h, Option.toList_some, List.append_assoc] at h1
  rw [h1]
  simp

/-- The run of C139: the program at 6 has answered a question and has crashed. It is started again and asked again,
with the old proxy, and answers. -/
example : ∃ (r : Crash.Run two) (t : Nat) (o : Node.Obs),
    (∀ n, two n = true → Fair r n ∧ Read r n ∧ Settles r n ∧ (∀ k, r.FairTo (At n (· = .app (.stubRecv k)))) ∧
      (∀ p, r.FairTo (At n (· = .app (.proxyRecv p)))) ∧
      ∀ k N, ∃ v, N ≤ v ∧ inCall k (app (life n (r.hist v))) = false) ∧
    Carries r 5 6 t ∧ Carries r 6 5 t ∧ Stays r 5 t ∧ Stays r 6 t ∧ (∃ u, u < t ∧ r.Does u (· = .crash 6)) ∧
    Shown (app (life 5 (r.hist t))) (.opened 0 6) ∧ Shown (app (life 6 (r.hist t))) (.serving 0 0 ⟨1, 1⟩) ∧
    Shown (app (life 5 (r.hist t))) (.proxying 0 0 ⟨1, 1⟩ 6) ∧
    r.act t = some (.net (5, .app (.proxySend 0 Ep.msgA)), o) ∧ o.ep = some (.accepted 0 Ep.msgA) ∧
    (Normal Ep.msgA ∧ For Ep.msgA ⟨1, 1⟩ ∧ Normal answerA ∧ For answerA ⟨1, 1⟩) ∧
    Crash.Answers r 6 t 0 0 Ep.msgA answerA 5 ∧ proxyGot 0 (app (life 5 (r.hist t))) = [answerA] ∧
    ∃ u, proxyGot 0 (app (life 5 (r.hist u))) = [answerA, answerA] := by
  obtain ⟨tr, s, e, h⟩ := exec_by (step := step two) (s := Net.init) again
    (fun (tr : Crash.Trace) s => calmNode (s.nodes 5) && calmNode (s.nodes 6) && allArrive 5 6 (nets tr) &&
      allArrive 6 5 (nets tr) && decide (
      (∀ n ∈ ([5, 6] : List Addr), (∀ k, k < (s.nodes n).ep.stubCount →
        ((s.nodes n).ep.ifaces ((s.nodes n).ep.stubs k).iface).queue.length < 16 ∧
          ((s.nodes n).ep.stubs k).pc = .idle) ∧
        ∀ k, k < (s.nodes n).ep.proxyCount →
        ((s.nodes n).ep.ifaces ((s.nodes n).ep.proxies k).iface).queue.length < 16) ∧
      tr[44]? = some (Action.crash 6, (⟨none, [], []⟩ : Node.Obs)) ∧
      tr[52]? = some (Action.net (5, .app (.proxySend 0 Ep.msgA)),
        (⟨some (.accepted 0 Ep.msgA), [], []⟩ : Node.Obs)) ∧
      tr[67]? = some (Action.net (6, .app (.stubSend 0 5 answerA)), (⟨some .none, [], []⟩ : Node.Obs)) ∧
      (∀ i, i < tr.length → 67 ≤ i → tr[i]?.map Prod.fst ≠ some (.net (6, .app (.stubRecv 0)))) ∧
      (tr.drop 52).all (fun x => decide (x.1 ≠ .crash 5) && decide (x.1 ≠ .crash 6)) = true) && decide (
      (app (life 5 (tr.take 52))).any (fun x => decide (x.2 = .opened 0 6)) = true ∧
      (app (life 6 (tr.take 52))).any (fun x => decide (x.2 = .serving 0 0 ⟨1, 1⟩)) = true ∧
      (app (life 5 (tr.take 52))).any (fun x => decide (x.2 = .proxying 0 0 ⟨1, 1⟩ 6)) = true ∧
      proxyGot 0 (app (life 5 (tr.take 52))) = [answerA] ∧ proxyGot 0 (app (life 5 tr)) = [answerA, answerA]))
    (by decide +kernel)
  simp only [Bool.and_eq_true, decide_eq_true_eq] at h
  obtain ⟨⟨⟨⟨⟨g1, g2⟩, g3⟩, g4⟩, g5, g0, g6, g7, g8, g16⟩, g9, g10, g11, g12, g13⟩ := h
  have hg := fun n => (Rt.Ep.good_hist (Node.parts (living e n)).1).1
  have k5 := calm_still (hg 5) g1
  have k6 := calm_still (hg 6) g2
  have hown : ∀ n, two n = true → n = 5 ∨ n = 6 := fun n hn => by
    simpa only [two, Bool.or_eq_true, decide_eq_true_eq] using hn
  obtain ⟨r, r1, r2, r4, r3⟩ := crash_rests e (fun n hn => by
    rcases hown n hn with rfl | rfl
    · exact k5.1
    · exact k6.1)
  have shown : ∀ {tr : Spec.Ep.Trace} {w : Rt.Ep.Obs}, tr.any (fun x => decide (x.2 = w)) = true → Shown tr w := by
    intro tr w h
    obtain ⟨⟨y, w'⟩, h9, h10⟩ := List.any_eq_true.mp h
    simp only [decide_eq_true_eq] at h10
    exact ⟨y, by rw [← h10]; exact h9⟩
  have r5 := (r3 _ (Nat.le_refl _)).2.1
  obtain ⟨t, h7, h8⟩ := crash_act r5 g6
  obtain ⟨t', h9, h10⟩ := crash_act r5 g7
  obtain ⟨j0, -, h0⟩ := crash_act r5 g0
  have stay : ∀ n, (n = 5 ∨ n = 6) → Stays r n t := by
    intro n hn
    refine crash_stays r3 h7 fun x hx => ?_
    have h1 := List.all_eq_true.mp g16 x hx
    simp only [Bool.and_eq_true, decide_eq_true_eq] at h1
    rcases hn with rfl | rfl
    · exact h1.1
    · exact h1.2
  refine ⟨r, t, _, fun n hn => ⟨r1 n hn, ⟨fun k N => ⟨max N tr.length, Nat.le_max_left .., ?_⟩,
    fun p N => ⟨max N tr.length, Nat.le_max_left .., ?_⟩⟩, r2 n, fun k => r4 n hn _ ?_, fun p => r4 n hn _ ?_,
    fun k N => ⟨max N tr.length, Nat.le_max_left .., ?_⟩⟩, crash_carries r3 g3 t, crash_carries r3 g4 t,
    stay 5 (.inl rfl), stay 6 (.inr rfl), ⟨j0, ?_, _, _, h0, rfl⟩, by rw [h7]; exact shown g9,
    by rw [h7]; exact shown g10, by rw [h7]; exact shown g11, h8, rfl, by unfold Normal For; decide,
    fun u o _ h11 _ => ⟨t', _, ?_, h10, rfl⟩, by rw [h7]; exact g12, tr.length, by rw [r5]; exact g13⟩
  · rw [(r3 _ (Nat.le_max_right ..)).1]
    exact fun hk => ((g5 n (by rcases hown n hn with rfl | rfl <;> simp)).1 k (Rt.Ep.stub_lt (hg n).fresh hk)).1
  · rw [(r3 _ (Nat.le_max_right ..)).1]
    exact fun hk => (g5 n (by rcases hown n hn with rfl | rfl <;> simp)).2 p (Rt.Ep.proxy_lt (hg n).fresh hk)
  · rintro x rfl
    rcases hown n hn with rfl | rfl
    · exact k5.2.1 k
    · exact k6.2.1 k
  · rintro x rfl
    rcases hown n hn with rfl | rfl
    · exact k5.2.2 p
    · exact k6.2.2 p
  · rw [(r3 _ (Nat.le_max_right ..)).2.1]
    refine (Rt.Ep.idle_iff (Node.parts (living e n)).1 k).mp ?_
    rcases Nat.lt_or_ge k (s.nodes n).ep.stubCount with h | h
    · exact ((g5 n (by rcases hown n hn with rfl | rfl <;> simp)).1 k h).2
    · rw [(hg n).fresh.stubs k h]
  · exact Nat.lt_of_not_le fun hle => stay 6 (.inr rfl) j0 hle ⟨_, _, h0, rfl⟩
  · obtain ⟨h12, -⟩ := crash_index r3 h11
    refine Nat.lt_of_not_ge fun hle => ?_
    obtain ⟨v, h13, -⟩ := r.segment hle
    have hlt : (r.hist u).length < tr.length := (List.getElem?_eq_some_iff.mp h12).1
    have h14 : 67 ≤ (r.hist u).length := by
      rw [h13, h9, List.length_append, List.length_take]
      have : 67 < tr.length := (List.getElem?_eq_some_iff.mp g7).1
      omega
    exact g8 _ hlt h14 (by rw [h12]; rfl)

end

end Rsomeip
