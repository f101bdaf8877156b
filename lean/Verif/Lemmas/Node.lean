import Verif.Lemmas.Udp
import Verif.Lemmas.Endpoint
import Verif.Spec.Node

/-! # Steps of an endpoint on a UDP socket -/

namespace Rsomeip.Rt.Node

open Spec.Node

/-- All ways a step of the endpoint can call the socket. -/
inductive Call (s : State) (x : Ep.Action) (e : Ep.State) (o : Ep.Obs) :
    State → List (Udp.Action × Udp.Obs) → List (Addr × Bytes) → Prop where
  | connect (c a v d b) (hx : x = .ep true) (ho : o = .opened c a)
      (hu : Udp.step s.udp (.connect a) = some (v, .connection d b)) :
      Call s x e o { s with ep := e, udp := v, chan := upd s.chan c d }
        [(.connect a, .connection d b)] []
  | close (v w) (hx : x = .ep true) (ho : o = .ended) (hu : Udp.step s.udp .close = some (v, w)) :
      Call s x e o { s with ep := e, udp := v } [(.close, w)] []
  | listen (v d) (hx : x = .ep true) (h1 : ∀ c a, o ≠ .opened c a) (h2 : o ≠ .ended)
      (hl : e.lisCount ≠ s.ep.lisCount)
      (hu : Udp.step s.udp (.listen 8) = some (v, .listening d)) :
      Call s x e o { s with ep := e, udp := v, backlog := upd s.backlog s.ep.lisCount d }
        [(.listen 8, .listening d)] []
  | accept (l a v d) (hx : x = .accept l a)
      (hu : Udp.step s.udp (.accept (s.backlog l)) = some (v, .connection d a)) :
      Call s x e o { s with ep := e, udp := v, chan := upd s.chan s.ep.connCount d }
        [(.accept (s.backlog l), .connection d a)] []
  | acceptNone (l v v' w) (hx : x = .acceptNone l)
      (hu : Udp.step s.udp (.accept (s.backlog l)) = some (v, .acceptNone))
      (hu' : Udp.step v (.dropListener (s.backlog l)) = some (v', w)) :
      Call s x e o { s with ep := e, udp := v' }
        [(.accept (s.backlog l), .acceptNone), (.dropListener (s.backlog l), w)] []
  | stop (l v w) (hx : x = .lisCmd l) (ha : (e.liss l).alive = false)
      (hu : Udp.step s.udp (.dropListener (s.backlog l)) = some (v, w)) :
      Call s x e o { s with ep := e, udp := v } [(.dropListener (s.backlog l), w)] []
  | recv (c r v w) (hx : x = .packet c r) (hr : received w = some r) (ha : (e.conns c).alive = true)
      (hu : Udp.step s.udp (.recv (s.chan c)) = some (v, w)) :
      Call s x e o { s with ep := e, udp := v } [(.recv (s.chan c), w)] []
  | recvEnd (c r v v' w w') (hx : x = .packet c r) (hr : received w = some r)
      (ha : (e.conns c).alive = false) (hu : Udp.step s.udp (.recv (s.chan c)) = some (v, w))
      (hu' : Udp.step v (.dropReceiver (s.chan c)) = some (v', w')) :
      Call s x e o { s with ep := e, udp := v' }
        [(.recv (s.chan c), w), (.dropReceiver (s.chan c), w')] []
  | drop (c v w) (hx : x = .connCmd c) (ha : (e.conns c).alive = false)
      (hu : Udp.step s.udp (.dropReceiver (s.chan c)) = some (v, w)) :
      Call s x e o { s with ep := e, udp := v } [(.dropReceiver (s.chan c), w)] []
  | send (c ok b) (hx : x = .sent c ok) (hb : (s.ep.conns c).out = some b)
      (ha : (e.conns c).alive = true) (hl : ok = true → b.length ≤ 1400) :
      Call s x e o { s with ep := e } []
        (if b.length ≤ 1400 then [((s.ep.conns c).addr, b)] else [])
  | sendEnd (c ok b v w) (hx : x = .sent c ok) (hb : (s.ep.conns c).out = some b)
      (ha : (e.conns c).alive = false) (hl : ok = true → b.length ≤ 1400)
      (hu : Udp.step s.udp (.dropReceiver (s.chan c)) = some (v, w)) :
      Call s x e o { s with ep := e, udp := v } [(.dropReceiver (s.chan c), w)]
        (if b.length ≤ 1400 then [((s.ep.conns c).addr, b)] else [])
  | still (h1 : ∀ ok, x = .ep ok → e.lisCount = s.ep.lisCount ∧ o ≠ .ended ∧ ∀ c a, o ≠ .opened c a)
      (h2 : ∀ l a, x ≠ .accept l a) (h3 : ∀ l, x ≠ .acceptNone l)
      (h4 : ∀ l, x = .lisCmd l → (e.liss l).alive = true) (h5 : ∀ c r, x ≠ .packet c r)
      (h6 : ∀ c, x = .connCmd c → (e.conns c).alive = true) (h7 : ∀ c ok, x ≠ .sent c ok) :
      Call s x e o { s with ep := e } [] []

theorem call_inv {s s' : State} {e : Ep.State} {o : Ep.Obs} {u : Udp.Action} {w : Obs}
    (h : call s e o u = some (s', w)) :
    ∃ v r, Udp.step s.udp u = some (v, r) ∧ s' = { s with ep := e, udp := v } ∧
      w = ⟨some o, [(u, r)], []⟩ := by
  simp only [call] at h
  split at h
  · cases h; exact ⟨_, _, ‹_›, rfl, rfl⟩
  · cases h

theorem send_big (os : Bytes → Bool) {b : Bytes} (h : 1400 < b.length) :
    Udp.send os b = (none, .error b) := if_pos h

theorem send_small (os : Bytes → Bool) {b : Bytes} (h : b.length ≤ 1400) :
    (Udp.send os b).1 = some b := by
  have hn : ¬ b.length > Udp.maxDatagramSize := Nat.not_lt.mpr h
  simp only [Udp.send]
  rw [if_neg hn]
  split <;> rfl

theorem call_of_app {s s' : State} {x : Ep.Action} {e : Ep.State} {o : Ep.Obs} {w : Obs}
    (h : appCall s x e o = some (s', w)) : w.ep = some o ∧ Call s x e o s' w.udp w.out := by
  have quiet : ∀ {x : Ep.Action}, (∀ ok, x ≠ .ep ok) → (∀ l a, x ≠ .accept l a) →
      (∀ l, x ≠ .acceptNone l) → (∀ l, x ≠ .lisCmd l) → (∀ c r, x ≠ .packet c r) →
      (∀ c, x ≠ .connCmd c) → (∀ c ok, x ≠ .sent c ok) → still s e o = some (s', w) →
      w.ep = some o ∧ Call s x e o s' w.udp w.out := by
    intro x h1 h2 h3 h4 h5 h6 h7 h
    cases h
    exact ⟨rfl, .still (fun ok hx => absurd hx (h1 ok)) h2 h3 (fun l hx => absurd hx (h4 l)) h5
      (fun c hx => absurd hx (h6 c)) h7⟩
  cases x with
  | ep ok =>
    simp only [appCall] at h
    split at h
    · rename_i hok
      subst hok
      simp only [epCall] at h
      split at h
      · split at h
        · cases h; exact ⟨rfl, .connect _ _ _ _ _ rfl rfl ‹_›⟩
        · cases h
      · obtain ⟨v, r, hu, rfl, rfl⟩ := call_inv h
        exact ⟨rfl, .close _ _ rfl rfl hu⟩
      · rename_i hn1 hn2
        split at h
        · cases h
          exact ⟨rfl, .still (fun ok _ => ⟨‹_›, hn2, hn1⟩) nofun nofun nofun nofun nofun nofun⟩
        · split at h
          · cases h; exact ⟨rfl, .listen _ _ rfl hn1 hn2 ‹_› ‹_›⟩
          · cases h
    · cases h
  | accept l a =>
    simp only [appCall, acceptCall] at h
    split at h
    · split at h
      · rename_i hb
        subst hb
        cases h
        exact ⟨rfl, .accept _ _ _ _ rfl ‹_›⟩
      · cases h
    · cases h
  | acceptNone l =>
    simp only [appCall] at h
    split at h
    · split at h
      · cases h; exact ⟨rfl, .acceptNone _ _ _ _ rfl ‹_› ‹_›⟩
      · cases h
    · cases h
  | lisCmd l =>
    simp only [appCall] at h
    split at h
    · rename_i ha
      cases h
      exact ⟨rfl, .still nofun nofun nofun (fun l' hx => by cases hx; exact ha) nofun nofun nofun⟩
    · rename_i ha
      obtain ⟨v, r, hu, rfl, rfl⟩ := call_inv h
      exact ⟨rfl, .stop _ _ _ rfl (Bool.eq_false_iff.mpr ha) hu⟩
  | packet c r =>
    simp only [appCall, recvCall, release] at h
    split at h
    · rename_i v w' hu
      split at h
      · rename_i hr
        by_cases ha : (e.conns c).alive = true
        · rw [if_pos ha] at h
          cases h
          exact ⟨rfl, .recv _ _ _ _ rfl hr ha hu⟩
        · rw [if_neg ha] at h
          split at h
          · rename_i s2 o2 us out2 hc
            obtain ⟨v', r', hu', rfl, hw⟩ := call_inv hc
            cases hw
            cases h
            exact ⟨rfl, .recvEnd _ _ _ _ _ _ rfl hr (Bool.eq_false_iff.mpr ha) hu hu'⟩
          · cases h
      · cases h
    · cases h
  | connCmd c =>
    simp only [appCall, release] at h
    split at h
    · rename_i ha
      cases h
      exact ⟨rfl, .still nofun nofun nofun nofun nofun (fun l' hx => by cases hx; exact ha) nofun⟩
    · rename_i ha
      obtain ⟨v, r, hu, rfl, rfl⟩ := call_inv h
      exact ⟨rfl, .drop _ _ _ rfl (Bool.eq_false_iff.mpr ha) hu⟩
  | sent c ok =>
    simp only [appCall, sendCall, release] at h
    split at h
    · rename_i b hb
      split at h
      · rename_i hok
        have hl : ok = true → b.length ≤ 1400 := by
          intro hk
          by_cases hle : b.length ≤ 1400
          · exact hle
          · rw [send_big _ (by omega), hk] at hok
            cases hok
        have hout : ((Udp.send (fun _ => ok) b).1.map fun b => ((s.ep.conns c).addr, b)).toList =
            if b.length ≤ 1400 then [((s.ep.conns c).addr, b)] else [] := by
          by_cases hle : b.length ≤ 1400
          · rw [send_small _ hle, if_pos hle]
            rfl
          · rw [send_big _ (by omega), if_neg hle]
            rfl
        by_cases ha : (e.conns c).alive = true
        · rw [if_pos ha] at h
          cases h
          refine ⟨rfl, ?_⟩
          dsimp only
          rw [hout]
          exact .send _ _ _ rfl hb ha hl
        · rw [if_neg ha] at h
          split at h
          · rename_i s2 o2 us out2 hc
            obtain ⟨v', r', hu', rfl, hw⟩ := call_inv hc
            cases hw
            cases h
            refine ⟨rfl, ?_⟩
            dsimp only
            rw [hout]
            exact .sendEnd _ _ _ _ _ rfl hb (Bool.eq_false_iff.mpr ha) hl hu'
          · cases h
      · cases h
    · cases h
  | _ => exact quiet nofun nofun nofun nofun nofun nofun nofun h

/-- All ways a step can go. -/
inductive Move (s : State) : Action → Obs → State → Prop where
  | app (x e o s' us out) (he : Ep.step true s.ep x = some (e, o)) (hc : Call s x e o s' us out) :
      Move s (.app x) ⟨some o, us, out⟩ s'
  | net (a u v w) (ha : ∀ x, a ≠ .app x) (hn : u = .task ∨ u = .failure ∨ ∃ b p, u = .datagram b p)
      (hd : ∀ b p, a = .datagram b p ↔ u = .datagram b p) (hu : Udp.step s.udp u = some (v, w)) :
      Move s a ⟨none, [(u, w)], []⟩ { s with udp := v }

theorem move_of_step {s s' : State} {a : Action} {o : Obs} (h : step s a = some (s', o)) :
    Move s a o s' := by
  cases a with
  | app x =>
    simp only [step] at h
    split at h
    · rename_i e w he
      obtain ⟨h1, h2⟩ := call_of_app h
      obtain ⟨oe, us, out⟩ := o
      cases h1
      exact .app x e w s' us out he h2
    · cases h
  | datagram b p =>
    simp only [step] at h
    split at h
    · cases h; exact .net _ _ _ _ nofun (.inr (.inr ⟨_, _, rfl⟩)) (by simp) ‹_›
    · cases h
  | failure =>
    simp only [step] at h
    split at h
    · cases h; exact .net _ _ _ _ nofun (.inr (.inl rfl)) (by simp) ‹_›
    · cases h
  | task =>
    simp only [step] at h
    split at h
    · cases h; exact .net _ _ _ _ nofun (.inl rfl) (by simp) ‹_›
    · cases h

/-! ### Projections -/

theorem app_snoc (tr : Trace) (x : Action × Obs) : app (tr ++ [x]) = app tr ++ app [x] := by
  simp only [app, List.filterMap_append]

theorem socket_snoc (tr : Trace) (x : Action × Obs) : socket (tr ++ [x]) = socket tr ++ x.2.udp := by
  simp [socket]

theorem out_snoc (tr : Trace) (x : Action × Obs) : out (tr ++ [x]) = out tr ++ x.2.out := by
  simp [out]

theorem Call.ep {s s' : State} {x : Ep.Action} {e : Ep.State} {o : Ep.Obs}
    {us : List (Udp.Action × Udp.Obs)} {out : List (Addr × Bytes)} (h : Call s x e o s' us out) :
    s'.ep = e := by cases h <;> rfl

theorem Call.udp {s s' : State} {x : Ep.Action} {e : Ep.State} {o : Ep.Obs}
    {us : List (Udp.Action × Udp.Obs)} {out : List (Addr × Bytes)} (h : Call s x e o s' us out) :
    Exec Udp.step s.udp us s'.udp := by
  cases h with
  | acceptNone _ _ _ _ _ hu hu' => exact .cons hu (.cons hu' .nil)
  | recvEnd _ _ _ _ _ _ _ _ _ hu hu' => exact .cons hu (.cons hu' .nil)
  | send => exact .nil
  | still => exact .nil
  | connect _ _ _ _ _ _ _ hu => exact .cons hu .nil
  | close _ _ _ _ hu => exact .cons hu .nil
  | listen _ _ _ _ _ _ hu => exact .cons hu .nil
  | accept _ _ _ _ _ hu => exact .cons hu .nil
  | stop _ _ _ _ _ hu => exact .cons hu .nil
  | recv _ _ _ _ _ _ _ hu => exact .cons hu .nil
  | drop _ _ _ _ _ hu => exact .cons hu .nil
  | sendEnd _ _ _ _ _ _ _ _ _ hu => exact .cons hu .nil

/-- A history of the node is a history of the endpoint and a history of the socket. -/
theorem parts {tr : Trace} {s : State} (e : Exec step init tr s) :
    Exec (Ep.step true) Ep.init (app tr) s.ep ∧ Exec Udp.step Udp.init (socket tr) s.udp := by
  induction e with
  | nil => exact ⟨.nil, .nil⟩
  | @snoc tr1 s1 s2 act ob _ hs ih =>
    obtain ⟨i1, i2⟩ := ih
    rw [app_snoc, socket_snoc]
    cases move_of_step hs with
    | app x e o s' us out he hc =>
      refine ⟨?_, i2.append hc.udp⟩
      rw [hc.ep]
      exact .snoc i1 he
    | net _ u v w ha hn hd hu =>
      refine ⟨?_, i2.append (.cons hu .nil)⟩
      have : app [(act, (⟨none, [(u, w)], []⟩ : Obs))] = [] := by
        cases act <;> first | rfl | exact absurd rfl (ha _)
      rw [this, List.append_nil]
      exact i1

end Rsomeip.Rt.Node
