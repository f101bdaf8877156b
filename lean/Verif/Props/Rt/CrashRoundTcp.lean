import Verif.Props.Rt.LiveTcpCrash
import Verif.Props.Rt.LiveRound

/-! # C149: over TCP, questions are answered again when crashes have come to an end -/

namespace Rsomeip

section
open Rt Rt.TcpCrash Spec Spec.TcpCrash Someip
open Spec.TcpNode (app Plain Whole Broke)
open Spec.Ep (Shown accepted For stubGot proxyGot Home Serving)
open Spec.Node (reads)

variable {own : Addr → Bool} {r : Run own} {a n : Addr} {T : Nat}

/-- From time `t` on, the user at `n` answers `m` with `x`: whenever stub `k` has returned `m` with sender `a`, stub
`j` calls `send_to` with `a` and `x` at some later time. -/
def Spec.TcpCrash.Answers (r : Run own) (n : Addr) (t k j : Nat) (m x : Msg) (a : Addr) : Prop :=
  ∀ s y i o, t ≤ s → r.act s = some (.net n y i, o) → o.ep = some (.stubRecv k, .message m a) →
    ∃ s' y' i' o', s < s' ∧ r.act s' = some (.net n y' i', o') ∧ o'.ep = some (.stubSend j a x, .none)

/-- The program at `n` makes such a step of its endpoint at time `t`. -/
def Spec.TcpCrash.Doing (r : Run own) (n : Addr) (t : Nat) (P : Rt.Ep.Action → Prop) : Prop :=
  ∃ y j o x w, r.act t = some (.net n y j, o) ∧ o.ep = some (x, w) ∧ P x

/-- Stub `j` at `n` has called `send_to` with `a` and `x`, not before time `t`, and while this call goes on, it is given
up at time `u`, or somebody connects from `a`. -/
def Spec.TcpCrash.Disturbed (r : Run own) (n : Addr) (t j : Nat) (a : Addr) (x : Msg) (u : Nat) : Prop :=
  ∃ s y i o, t ≤ s ∧ s < u ∧ r.act s = some (.net n y i, o) ∧ o.ep = some (.stubSend j a x, .none) ∧
    (∀ v, s < v → v ≤ u → Spec.Ep.inCall j (app (life n (r.hist v))) = true) ∧
    (Doing r n u (· = .stubCancel j) ∨ Doing r n u (· = .dropStub j) ∨ Doing r n u fun y => ∃ l', y = .accept l' a)

/-- At time `u` it can be seen why a question that was asked at time `t` on connection `d` of the program at `a`, the
other end of which is connection `c` of the program at `n`, accepted by its listener `l`, was not answered with `x`,
where stub `k` receives the question and stub `j` sends the answer to proxy `p`: the connection is broken in one of the
two directions, the stub or the proxy was dropped, accepting connections has failed or the listener has ended, or, while
the call of `send_to` with the answer went on, it was given up or somebody has connected from `a` anew. All this in the
present lives of the two programs. -/
def Spec.TcpCrash.Hindered (r : Run own) (a n : Addr) (c d l t k j p : Nat) (x : Msg) (u : Nat) : Prop :=
  Useless n c a d (r.hist u) ∨ Useless a d n c (r.hist u) ∨ (.dropStub k, .none) ∈ app (life n (r.hist u)) ∨
  (∃ l, (.acceptNone l, .ended) ∈ app (life n (r.hist u))) ∨ ¬ Serving (app (life n (r.hist u))) l c ∨
  Disturbed r n t j a x u ∨ (.dropProxy p, .none) ∈ app (life a (r.hist u))

/-- As before, or the operating system at `a` has reported an error on a connection to `n`, the only one on which the
proxy has sent, if any. -/
def Spec.TcpCrash.Prevented (r : Run own) (a n : Addr) (c d l t k j p : Nat) (x : Msg) (u : Nat) : Prop :=
  Hindered r a n c d l t k j p x u ∨ Spec.TcpNode.CutOff p n (life a (r.hist u))

theorem crash_tcp_ep_act {V t : Nat} (b : Begins r n V) {x : Rt.Ep.Action} {w : Rt.Ep.Obs}
    (h : (TcpNode.epRun (nodeRun r b)).act t = some (x, w)) :
    ∃ y j o, r.act t = some (.net n y j, o) ∧ o.ep = some (x, w) := by
  obtain ⟨⟨y, o⟩, h1, h2⟩ := Option.bind_eq_some_iff.mp h
  obtain ⟨-, j, h3⟩ := nodeRun_act' b h1
  exact ⟨y, j, o, h3, h2⟩

theorem crash_tcp_act_ep {V t j : Nat} (b : Begins r n V) {y : TcpNode.Action} {x : Rt.Ep.Action} {o : TcpNode.Obs}
    {w : Rt.Ep.Obs} (ht : V ≤ t) (h : r.act t = some (.net n y j, o)) (ho : o.ep = some (x, w)) :
    (TcpNode.epRun (nodeRun r b)).act t = some (x, w) := by
  show ((nodeRun r b).act t).bind _ = _
  rw [nodeRun_act b ht h]
  exact ho

/-- What `C149_partial` says, about the two ends of the model's connections. -/
theorem crash_tcp_round (sa : Stays r a T) (sn : Stays r n T) (ha : own a = true) (hn : own n = true)
    (hf : Fair r n) (hr : Read r n) (hb : Settles r n) (hw : Carries r n T)
    (fa : Fair r a) (ra : Read r a) (sb : Settles r a) (wa : Carries r a T) :
    ∀ t t' c d, T ≤ t → T ≤ t' → joined r a n t' c d →
      (∀ u, T ≤ u → (∀ m ∈ accepted d (app (life a (r.hist u))), Plain m) ∧
        (∀ m ∈ accepted c (app (life n (r.hist u))), Plain m) ∧
        (∀ b ∈ reads c (app (life n (r.hist u))), Whole b) ∧ ∀ b ∈ reads d (app (life a (r.hist u))), Whole b) →
      ∀ k i id p i' id', r.FairTo (At n (· = .app (.stubRecv k))) → r.FairTo (At a (· = .app (.proxyRecv p))) →
        Shown (app (life n (r.hist t))) (.serving k i id) →
        Shown (app (life a (r.hist t))) (.proxying p i' id' n) →
        ∀ y z v o m, r.act t = some (.net a y v, o) → o.ep = some (z, .accepted d m) → For m id →
          ∀ j x l, Answers r n t k j m x a → For x id' →
            (∀ s y i o, t ≤ s → r.act s = some (.net n y i, o) → o.ep = some (.stubSend j a x, .none) →
              Home (app (life n (r.hist s))) l c a) →
            ∃ u, t ≤ u ∧ (Hindered r a n c d l t k j p x u ∨
              t < u ∧ Spec.TcpNode.CutOff p n (life a (r.hist u)) ∨
              ∃ q, proxyGot p (app (life a (r.hist u))) = proxyGot p (app (life a (r.hist t))) ++ q ∧ x ∈ q) := by
  intro t t' c d hT hT' hp h2 k i id p i' id' hg hga hk hk' y z v o m h ho hid j x l hans hid' hh
  obtain ⟨U, hU, ba⟩ := begins sa
  obtain ⟨V, hV, bn⟩ := begins sn
  have hist : ∀ u, t ≤ u → (TcpNode.epRun (nodeRun r bn)).hist u = app (life n (r.hist u)) := fun u hu => by
    rw [TcpNode.epRun_hist, nodeRun_hist bn (by omega)]
  obtain ⟨u, h3, h4⟩ := crash_tcp_request sa sn hn fa hf hr hb hw t t' c d hT hT' hp (fun u hu => (h2 u hu).1)
    (fun u hu => (h2 u hu).2.2.1) k i id hg hk y z v o m h ho hid
  rcases h4 with h4 | h4 | h4 | ⟨q, h4, h5⟩
  · exact ⟨u, h3, .inl (.inl h4)⟩
  · exact ⟨u, h3, .inl (.inr (.inr (.inl h4)))⟩
  · exact ⟨u, h3, .inl (.inr (.inr (.inr (.inl h4))))⟩
  rw [← hist u h3, ← hist t (Nat.le_refl _)] at h4
  obtain ⟨s, h6, h7⟩ := got_at _ h3 h4 h5
  obtain ⟨y₁, j₁, o₁, h8, h9⟩ := crash_tcp_ep_act bn h7
  obtain ⟨s', y₂, j₂, o₂, h10, h11, h12⟩ := hans s y₁ j₁ o₁ h6 h8 h9
  -- the answer is put into the queue of this connection
  obtain ⟨w, g1, g0, g2⟩ := C136_answer _ (TcpNode.ep_fair (fair_node bn hf hn)) (TcpNode.ep_settles (settles_node bn hb))
    (crash_tcp_act_ep bn (by omega) h11 h12)
    (by rw [hist s' (by omega)]; exact hh s' y₂ j₂ o₂ (by omega) h11 h12)
  have htw : t ≤ w := by omega
  have hts : t ≤ s' := by omega
  have g0 : ∀ v, s' < v → v ≤ w → Spec.Ep.inCall j (app (life n (r.hist v))) = true := fun v g1 g2 => by
    rw [← hist v (by omega)]
    exact g0 v g1 g2
  have lift : ∀ {P : Rt.Ep.Action → Prop}, (TcpNode.epRun (nodeRun r bn)).Does w P → Doing r n w P := by
    rintro P ⟨y, w', g3, g4⟩
    obtain ⟨y', j', o', g5, g6⟩ := crash_tcp_ep_act bn g3
    exact ⟨y', j', o', y, w', g5, g6, g4⟩
  rcases g2 with g2 | g2 | g2 | g2 | g2
  · obtain ⟨y', j', o', g3, g4⟩ := crash_tcp_ep_act bn g2
    obtain ⟨e, he⟩ := life_grows ba (show U ≤ t by omega) htw
    have grow : app (life a (r.hist w)) = app (life a (r.hist t)) ++ app e := by rw [he, tcp_app_append]
    have g5 : Shown (app (life a (r.hist w))) (.proxying p i' id' n) := by
      obtain ⟨z, h8⟩ := hk'
      exact ⟨z, by rw [grow]; exact List.mem_append_left _ h8⟩
    obtain ⟨u', g6, g7⟩ := crash_tcp_reply sn sa ha hf fa ra sb wa w t' d c (by omega) hT' (joined_symm hp)
      (fun u hu => (h2 u hu).2.1) (fun u hu => (h2 u hu).2.2.2) p i' id' hga g5 y' _ j' o' x g3 g4 hid'
    refine ⟨u', by omega, ?_⟩
    rcases g7 with g7 | g7 | g7 | ⟨q', g7, g8⟩
    · exact .inl (.inr (.inl g7))
    · exact .inl (.inr (.inr (.inr (.inr (.inr (.inr g7))))))
    · exact .inr (.inl ⟨by omega, g7⟩)
    · refine .inr (.inr ⟨proxyGot p (app e) ++ q', ?_, List.mem_append_right _ g8⟩)
      rw [g7, grow, proxyGot, proxyGot, proxyGot, List.filterMap_append, List.append_assoc]
  · exact ⟨w, htw, .inl (.inr (.inr (.inr (.inr (.inr (.inl
      ⟨s', y₂, j₂, o₂, hts, g1, h11, h12, g0, .inl (lift g2)⟩))))))⟩
  · exact ⟨w, htw, .inl (.inr (.inr (.inr (.inr (.inr (.inl
      ⟨s', y₂, j₂, o₂, hts, g1, h11, h12, g0, .inr (.inl (lift g2))⟩))))))⟩
  · rw [hist w htw] at g2
    exact ⟨w, htw, .inl (.inr (.inr (.inr (.inr (.inl g2)))))⟩
  · exact ⟨w, htw, .inl (.inr (.inr (.inr (.inr (.inr (.inl
      ⟨s', y₂, j₂, o₂, hts, g1, h11, h12, g0, .inr (.inr (lift g2))⟩))))))⟩

/-- **C149**, the part that holds. Programs connected by TCP may crash again and again before time `T`, but those at
`a` and `n` do not afterwards. After that the program at `a` puts `m` into the queue of its connection `d`, the other
end of which is or will be connection `c` of the program at `n`; a stub was made for the interface of `m` in the present
life of that program. Its user answers `m` with `x`; when they call `send_to`, connection `c` was registered as in
C115. A proxy at `a` was made for `n` and the interface of `x`. If nobody is passed over at both, their users read from
the handles, TCP carries what was written, all reads on both ends of the connection end between messages, and the
messages sent on it can be expressed in the format, then the proxy returns `x` at some time after `m` was sent, or it
can be seen what has prevented this. What is missing: reads that end inside a message (`C146_false`). -/
theorem C149_partial (sa : Stays r a T) (sn : Stays r n T) (ha : own a = true) (hn : own n = true)
    (hf : Fair r n) (hr : Read r n) (hb : Settles r n) (hw : Carries r n T)
    (fa : Fair r a) (ra : Read r a) (sb : Settles r a) (wa : Carries r a T) :
    ∃ pair : Nat → Nat → Nat → Prop, Coupled r a n T pair ∧
      ∀ t t' c d, T ≤ t → T ≤ t' → pair t' c d →
        (∀ u, T ≤ u → (∀ m ∈ accepted d (app (life a (r.hist u))), Plain m) ∧
          (∀ m ∈ accepted c (app (life n (r.hist u))), Plain m) ∧
          (∀ b ∈ reads c (app (life n (r.hist u))), Whole b) ∧ ∀ b ∈ reads d (app (life a (r.hist u))), Whole b) →
        ∀ k i id p i' id', r.FairTo (At n (· = .app (.stubRecv k))) → r.FairTo (At a (· = .app (.proxyRecv p))) →
          Shown (app (life n (r.hist t))) (.serving k i id) →
          Shown (app (life a (r.hist t))) (.proxying p i' id' n) →
          ∀ y z v o m, r.act t = some (.net a y v, o) → o.ep = some (z, .accepted d m) → For m id →
            ∀ j x l, Answers r n t k j m x a → For x id' →
              (∀ s y i o, t ≤ s → r.act s = some (.net n y i, o) → o.ep = some (.stubSend j a x, .none) →
                Home (app (life n (r.hist s))) l c a) →
              ∃ u, t ≤ u ∧ (Prevented r a n c d l t k j p x u ∨
                ∃ q, proxyGot p (app (life a (r.hist u))) = proxyGot p (app (life a (r.hist t))) ++ q ∧ x ∈ q) := by
  refine ⟨joined r a n, joined_coupled sa sn ha hn, ?_⟩
  intro t t' c d hT hT' hp h2 k i id p i' id' hg hga hk hk' y z v o m h ho hid j x l hans hid' hh
  obtain ⟨u, h3, h4⟩ := crash_tcp_round sa sn ha hn hf hr hb hw fa ra sb wa t t' c d hT hT' hp h2 k i id p i' id' hg hga
    hk hk' y z v o m h ho hid j x l hans hid' hh
  exact ⟨u, h3, h4.elim (fun h4 => .inl (.inl h4)) fun h4 => h4.imp_left fun h4 => .inr h4.2⟩

/-- **C149**, the part that holds, if the client asks with the proxy itself: as before, but errors on other connections
are no excuse. What is missing: as before. -/
theorem C149_ask_partial (sa : Stays r a T) (sn : Stays r n T) (ha : own a = true) (hn : own n = true)
    (hf : Fair r n) (hr : Read r n) (hb : Settles r n) (hw : Carries r n T)
    (fa : Fair r a) (ra : Read r a) (sb : Settles r a) (wa : Carries r a T) :
    ∃ pair : Nat → Nat → Nat → Prop, Coupled r a n T pair ∧
      ∀ t t' c d, T ≤ t → T ≤ t' → pair t' c d →
        (∀ u, T ≤ u → (∀ m ∈ accepted d (app (life a (r.hist u))), Plain m) ∧
          (∀ m ∈ accepted c (app (life n (r.hist u))), Plain m) ∧
          (∀ b ∈ reads c (app (life n (r.hist u))), Whole b) ∧ ∀ b ∈ reads d (app (life a (r.hist u))), Whole b) →
        ∀ k i id p i' id', r.FairTo (At n (· = .app (.stubRecv k))) → r.FairTo (At a (· = .app (.proxyRecv p))) →
          Shown (app (life n (r.hist t))) (.serving k i id) →
          Shown (app (life a (r.hist t))) (.proxying p i' id' n) →
          ∀ y m₀ v o m, r.act t = some (.net a y v, o) → o.ep = some (.proxySend p m₀, .accepted d m) → For m id →
            ∀ j x l, Answers r n t k j m x a → For x id' →
              (∀ s y i o, t ≤ s → r.act s = some (.net n y i, o) → o.ep = some (.stubSend j a x, .none) →
                Home (app (life n (r.hist s))) l c a) →
              ∃ u, t ≤ u ∧ (Hindered r a n c d l t k j p x u ∨
                ∃ q, proxyGot p (app (life a (r.hist u))) = proxyGot p (app (life a (r.hist t))) ++ q ∧ x ∈ q) := by
  refine ⟨joined r a n, joined_coupled sa sn ha hn, ?_⟩
  intro t t' c d hT hT' hp h2 k i id p i' id' hg hga hk hk' y m₀ v o m h ho hid j x l hans hid' hh
  obtain ⟨u, h3, h4⟩ := crash_tcp_round sa sn ha hn hf hr hb hw fa ra sb wa t t' c d hT hT' hp h2 k i id p i' id' hg hga
    hk hk' y _ v o m h ho hid j x l hans hid' hh
  refine ⟨u, h3, ?_⟩
  rcases h4 with h4 | ⟨h4, e, -, h5, h6⟩ | h4
  · exact .inl h4
  · obtain ⟨U, hU, ba⟩ := begins sa
    have g1 := crash_tcp_act_ep ba (show U ≤ t by omega) h ho
    obtain ⟨w, g2, -⟩ := (TcpNode.epRun (nodeRun r ba)).segment (show t + 1 ≤ u from h4)
    rw [(TcpNode.epRun (nodeRun r ba)).hist_succ, g1, TcpNode.epRun_hist, nodeRun_hist ba (by omega)] at g2
    cases h6 d m₀ m (by rw [g2]; simp)
    exact .inl (.inl (.inl h5))
  · exact .inr h4

end

/-! ### A conversation after crashes -/

section
open Rt Rt.TcpCrash Spec Spec.TcpCrash
open Spec.TcpNet (allPlain)
open Spec.TcpNode (arrived app Plain Whole)
open Spec.Ep (Shown accepted For proxyGot Home)
open Spec.Node (reads)
open Spec.Net (two answerA)

/-- What happens in a run that comes to rest is at its place in the whole history. -/
theorem crash_tcp_index {own : Addr → Bool} {r : Run own} {tr : Trace} {s : State} {t : Nat}
    {x : Action × TcpNode.Obs} (r3 : ∀ t, tr.length ≤ t → r.state t = s ∧ r.hist t = tr ∧ r.act t = none)
    (h : r.act t = some x) : tr[(r.hist t).length]? = some x ∧ r.hist t = tr.take (r.hist t).length := by
  obtain ⟨v, h1, -⟩ := r.segment (Nat.le_max_left (t + 1) tr.length)
  rw [(r3 _ (Nat.le_max_right ..)).2.1, r.hist_succ, h, Option.toList_some, List.append_assoc] at h1
  rw [h1]
  simp

/-- The run of C146: both programs have crashed; the new program at 5 asks the new one at 6 with a proxy, and is answered. -/
example : ∃ (r : Run two) (T t : Nat) (o : TcpNode.Obs),
    (∀ n, two n = true → Stays r n T ∧ Fair r n ∧ Read r n ∧ Settles r n ∧ Carries r n T) ∧
    ((∃ u, u < T ∧ r.Does u (· = .crash 5)) ∧ ∃ u, u < T ∧ r.Does u (· = .crash 6)) ∧ T ≤ t ∧
    (∀ pair, Coupled r 5 6 T pair → ∃ t, T ≤ t ∧ pair t 0 0) ∧
    (∀ u, T ≤ u → ¬ Useless 6 0 5 0 (r.hist u) ∧ ¬ Useless 5 0 6 0 (r.hist u)) ∧
    (∀ u, T ≤ u → (∀ m ∈ accepted 0 (app (life 5 (r.hist u))), Plain m) ∧
      (∀ m ∈ accepted 0 (app (life 6 (r.hist u))), Plain m) ∧
      (∀ b ∈ reads 0 (app (life 6 (r.hist u))), Whole b) ∧ ∀ b ∈ reads 0 (app (life 5 (r.hist u))), Whole b) ∧
    r.FairTo (At 6 (· = .app (.stubRecv 0))) ∧ r.FairTo (At 5 (· = .app (.proxyRecv 0))) ∧
    Shown (app (life 6 (r.hist t))) (.serving 0 0 ⟨1, 1⟩) ∧
    Shown (app (life 5 (r.hist t))) (.proxying 0 0 ⟨1, 1⟩ 6) ∧
    r.act t = some (.net 5 (.app (.proxySend 0 Ep.msgA)) 0, o) ∧
    o.ep = some (.proxySend 0 Ep.msgA, .accepted 0 Ep.msgA) ∧ For Ep.msgA ⟨1, 1⟩ ∧ For answerA ⟨1, 1⟩ ∧
    Answers r 6 t 0 0 Ep.msgA answerA 5 ∧
    (∀ s y i o, t ≤ s → r.act s = some (.net 6 y i, o) → o.ep = some (.stubSend 0 5 answerA, .none) →
      Home (app (life 6 (r.hist s))) 0 0 5) ∧
    proxyGot 0 (app (life 5 (r.hist t))) = [] ∧ ∃ u, proxyGot 0 (app (life 5 (r.hist u))) = [answerA] := by
  obtain ⟨tr, s, e, h⟩ := exec_by (step := step two) (s := init) anew
    (fun (tr : Trace) s => calm s && Spec.TcpNode.errorless (life 5 tr) && Spec.TcpNode.errorless (life 6 tr) &&
      allPlain (app (life 5 tr)) && allPlain (app (life 6 tr)) && decide (
      (((s.nodes 6).ep.conns 0).alive = true ∧ ((s.nodes 5).ep.conns 0).alive = true ∧
      (∀ x ∈ life 6 tr, (match x.1 with | .shut _ => false | _ => true) = true) ∧
      (∀ x ∈ life 5 tr, (match x.1 with | .shut _ => false | _ => true) = true) ∧
      ((Rt.Ep.Action.accept 0 5, Rt.Ep.Obs.opened 0 5) : Rt.Ep.Action × Rt.Ep.Obs) ∈ app (life 6 tr) ∧
      reads 0 (app (life 6 tr)) = [frame Ep.msgA] ∧ reads 0 (app (life 5 tr)) = [frame answerA])) && decide (
      tr[7]? = some ((.crash 6, ⟨none, none⟩) : Action × TcpNode.Obs) ∧
      tr[23]? = some ((.crash 5, ⟨none, none⟩) : Action × TcpNode.Obs) ∧
      tr[24]?.isSome = true ∧ (∀ x ∈ tr.drop 24, x.1 ≠ .crash 5 ∧ x.1 ≠ .crash 6) ∧
      tr[32]? = some ((.net 5 (.app (.proxySend 0 Ep.msgA)) 0,
        ⟨some (.proxySend 0 Ep.msgA, .accepted 0 Ep.msgA), none⟩) : Action × TcpNode.Obs) ∧
      (app (life 6 (tr.take 32))).any (fun x => decide (x.2 = .serving 0 0 ⟨1, 1⟩)) = true ∧
      tr[45]? = some ((.net 6 (.app (.stubSend 0 5 answerA)) 0,
        ⟨some (.stubSend 0 5 answerA, .none), none⟩) : Action × TcpNode.Obs) ∧
      (app (life 5 (tr.take 32))).any (fun x => decide (x.2 = .proxying 0 0 ⟨1, 1⟩ 6)) = true ∧
      (s.nodes 5).ep.connCount = 1 ∧ arrived 0 (life 6 tr) ≠ [] ∧
      (former 5 tr).all (fun L => (L.all fun x => x.2.out.isNone)) = true ∧
      (TcpNode.step (s.nodes 6) (.app (.stubRecv 0))).isNone = true) &&
      (TcpNode.step (s.nodes 5) (.app (.proxyRecv 0))).isNone && decide (
      (∀ i, i < tr.length → 45 ≤ i → ∀ x ∈ tr[i]?, ∀ y ∈ x.2.ep, y.1 ≠ .stubRecv 0) ∧
      (∀ i, i < tr.length → i ≠ 45 → ∀ x ∈ tr[i]?, ∀ y ∈ x.2.ep, y.1 ≠ .stubSend 0 5 answerA) ∧
      app (life 6 (tr.take 45)) = (app (life 6 (tr.take 45))).take 7 ++ (Rt.Ep.Action.accept 0 5, Rt.Ep.Obs.opened 0 5) ::
        (Rt.Ep.Action.lisShare 0, Rt.Ep.Obs.none) :: (app (life 6 (tr.take 45))).drop (7 + 2) ∧
      proxyGot 0 (app (life 5 (tr.take 32))) = [] ∧ proxyGot 0 (app (life 5 tr)) = [answerA]) &&
      (((app (life 6 (tr.take 45))).take 7 ++ (app (life 6 (tr.take 45))).drop (7 + 2)).all fun x =>
        match x.1 with | .accept _ b => b != 5 | _ => true) &&
      (((app (life 6 (tr.take 45))).take 7).all fun x => match x.1 with | .stubSend _ b _ => b != 5 | _ => true))
    (by decide +kernel)
  simp only [Bool.and_eq_true, decide_eq_true_eq, Option.isNone_iff_eq_none] at h
  obtain ⟨⟨⟨⟨⟨⟨⟨⟨⟨⟨g1, g2⟩, g2'⟩, g3⟩, g3'⟩, g4, g4', g5, g5', g6, g8, g8'⟩, c6, c5, c0, g9, g10, g11, g12, g13, g14, g15,
    g16, g17⟩, g18⟩, k1, k2, k3, k6, k7⟩, k4⟩, k5⟩ := h
  obtain ⟨r, r1, r2, r3⟩ := crash_tcp_calm e g1
  have r4 := (r3 _ (Nat.le_refl _)).2.1
  obtain ⟨x0, hx0⟩ := Option.isSome_iff_exists.mp c0
  obtain ⟨T, hT, -⟩ := crash_tcp_act r4 hx0
  have hl : 24 ≤ tr.length := Nat.le_of_lt (List.getElem?_eq_some_iff.mp hx0).1
  have s5 := crash_tcp_stays (n := 5) r3 hT hl fun x hx => (g9 x hx).1
  have s6 := crash_tcp_stays (n := 6) r3 hT hl fun x hx => (g9 x hx).2
  have hown : ∀ n, two n = true → n = 5 ∨ n = 6 := fun n hn => by simpa [two] using hn
  have hst : ∀ n, two n = true → Stays r n T := fun n hn => by rcases hown n hn with rfl | rfl <;> assumption
  have hA : Plain Ep.msgA := ⟨by unfold Normal; decide, by decide⟩
  have hB : Plain answerA := ⟨by unfold Normal; decide, by decide⟩
  have len : ∀ {i j}, r.hist j = tr.take i → i ≤ tr.length → (r.hist j).length = i := by
    intro i j h hi
    rw [h, List.length_take]; omega
  have before : ∀ {i j}, r.hist j = tr.take i → i < 24 → j < T := by
    intro i j h hi
    refine Nat.lt_of_not_le fun hj => ?_
    obtain ⟨v, h1, -⟩ := r.segment hj
    have := len h (by omega)
    rw [h1, List.length_append, len hT hl] at this
    omega
  have plain : ∀ n, two n = true → ∀ t, T ≤ t → ∀ m₀ ∈ accepted 0 (app (life n (r.hist t))), Plain m₀ := by
    intro n hn t ht m₀ hm
    obtain ⟨w, hw⟩ := crash_tcp_sub r3 (hst n hn) ht
    have hall : allPlain (app (life n tr)) = true := by
      rcases hown n hn with rfl | rfl
      · exact g3
      · exact g3'
    obtain ⟨z, hz⟩ := accepted_mem hm
    exact plain_of_all hall z 0 _ (by rw [hw, tcp_app_append]; exact List.mem_append_left _ hz)
  have whole : ∀ n, two n = true → ∀ t, T ≤ t → ∀ b ∈ reads 0 (app (life n (r.hist t))), Whole b := by
    intro n hn t ht b hb
    obtain ⟨w, hw⟩ := crash_tcp_sub r3 (hst n hn) ht
    have : b ∈ reads 0 (app (life n tr)) := by
      rw [hw, tcp_app_append, reads_append]
      exact List.mem_append_left _ hb
    rcases hown n hn with rfl | rfl
    · rw [g8'] at this
      cases List.mem_singleton.mp this
      exact ⟨[_], by simpa using hB, by simp⟩
    · rw [g8] at this
      cases List.mem_singleton.mp this
      exact ⟨[_], by simpa using hA, by simp⟩
  obtain ⟨t, h1, h2⟩ := crash_tcp_act r4 g10
  obtain ⟨t', h3, h4⟩ := crash_tcp_act r4 g12
  have hl32 : 32 ≤ tr.length := Nat.le_of_lt (List.getElem?_eq_some_iff.mp g10).1
  have hl45 : 45 ≤ tr.length := Nat.le_of_lt (List.getElem?_eq_some_iff.mp g12).1
  refine ⟨r, T, t, _, fun n hn => ⟨hst n hn, (r1 n hn).1, (r1 n hn).2.1, (r1 n hn).2.2.1, (r1 n hn).2.2.2 T⟩,
    ⟨?_, ?_⟩, ?_, (crash_tcp_pair e r3 g6 g14 g15 g16).1, fun t ht => ⟨crash_tcp_useful e r3 s5 s6 ht g2 g4 g5,
      crash_tcp_useful e r3 s6 s5 ht g2' g4' g5'⟩,
    fun u hu => ⟨plain 5 rfl u hu, plain 6 rfl u hu, whole 6 rfl u hu, whole 5 rfl u hu⟩,
    r2 _ _ (by rintro x rfl; exact g17), r2 _ _ (by rintro x rfl; exact g18), by rw [h1]; exact shown_any g11,
    by rw [h1]; exact shown_any g13, h2, rfl, by unfold For; decide, by unfold For; decide, ?_, ?_,
    by rw [h1]; exact k6, tr.length, by rw [r4]; exact k7⟩
  · obtain ⟨j, h1, h2⟩ := crash_tcp_act r4 c5
    exact ⟨j, before h1 (by omega), _, _, h2, rfl⟩
  · obtain ⟨j, h1, h2⟩ := crash_tcp_act r4 c6
    exact ⟨j, before h1 (by omega), _, _, h2, rfl⟩
  · refine Nat.le_of_not_lt fun hj => ?_
    obtain ⟨v, h5, -⟩ := r.segment (Nat.le_of_lt hj)
    have := len hT hl
    rw [h5, List.length_append, len h1 hl32] at this
    omega
  · intro u y i o _ h5 h6
    refine ⟨t', _, _, _, ?_, h4, rfl⟩
    obtain ⟨h7, -⟩ := crash_tcp_index r3 h5
    refine Nat.lt_of_not_ge fun hle => ?_
    obtain ⟨v, h8, -⟩ := r.segment hle
    have h9 : 45 ≤ (r.hist u).length := by rw [h8, List.length_append, len h3 hl45]; omega
    exact k1 _ (List.getElem?_eq_some_iff.mp h7).1 h9 _ h7 _ h6 rfl
  · intro u y i o _ h5 h6
    obtain ⟨h7, h8⟩ := crash_tcp_index r3 h5
    have h9 : (r.hist u).length = 45 := by
      apply Classical.byContradiction
      intro h9
      exact k2 _ (List.getElem?_eq_some_iff.mp h7).1 h9 _ h7 _ h6 rfl
    rw [h8, h9]
    exact home_at 7 k3 k4 k5

end

end Rsomeip
