import Verif.Lemmas.NodeLink

/-! # Histories of an endpoint on a UDP socket -/

namespace Rsomeip.Rt

namespace Udp

open Spec.Udp

theorem seen_held {tr : Trace} {s : State} (e : Exec step init tr s) (c : Nat)
    (h : (s.chans c).held = false) : seen c tr = [] := by
  induction e with
  | nil => rfl
  | @snoc tr1 s1 s2 act o e1 hs ih =>
    have m := move_of_step hs
    have t := (exec_inv e1).1
    have h1 : (s1.chans c).held = false := by
      rcases Nat.lt_or_ge c s1.chanCount with hc | hc
      · cases hh : (s1.chans c).held with
        | false => rfl
        | true => rw [(m.held t hc hh).2.1] at h; cases h
      · exact (t.high c hc).2.2.2
    rw [seen_snoc, ih h1, List.nil_append]
    cases m <;> first | rfl | skip
    all_goals
      simp only [seen, List.flatMap_cons, List.flatMap_nil, List.append_nil]
      rw [if_neg]
      rintro rfl
      exact Bool.false_ne_true (h1.symm.trans ‹(s1.chans _).held = true›)

theorem got_append (c : Nat) (t u : Trace) : got c (t ++ u) = got c t ++ got c u := by
  simp only [got, seen, List.flatMap_append, List.filterMap_append]

theorem connections_append (t u : Trace) :
    connections (t ++ u) = connections t ++ connections u := by
  simp only [connections, List.filterMap_append]

end Udp

namespace Node

open Spec.Node

theorem reads_snoc (c : Nat) (tr : Spec.Ep.Trace) (y : Ep.Action × Ep.Obs) :
    reads c (tr ++ [y]) = reads c tr ++ reads c [y] := by
  simp only [reads, List.filterMap_append]

variable {s s' : State} {x : Ep.Action} {e : Ep.State} {o : Ep.Obs}
  {us : List (Udp.Action × Udp.Obs)} {out' : List (Addr × Bytes)}

theorem Call.chan (k : Call s x e o s' us out') (m : Ep.Move true s.ep x o e) {c : Nat}
    (hc : c < s.ep.connCount) : s'.chan c = s.chan c := by
  cases k with
  | connect c' a v d b hx ho hu =>
    subst ho
    obtain ⟨rfl, _⟩ := opened_lt m
    exact upd_ne _ _ (by omega)
  | accept => exact upd_ne _ _ (by omega)
  | _ => rfl

theorem Call.reads (k : Call s x e o s' us out') (h : Link s) (hg : Ep.Good s.ep)
    (m : Ep.Move true s.ep x o e) {c : Nat} (hc : c < s.ep.connCount) :
    Spec.Udp.got (s.chan c) us = Spec.Node.reads c [(x, o)] := by
  have quiet : (∀ c r, x ≠ .packet c r) → Spec.Node.reads c [(x, o)] = [] := by
    intro h
    cases x <;> first | rfl | exact absurd rfl (h _ _)
  have hlt := @conn_lt _ _ _ _ hg m
  have recv : ∀ {c' : Nat} {r : Recv} {w : Udp.Obs} {ys : List (Udp.Action × Udp.Obs)},
      x = .packet c' r → received w = some r → Spec.Udp.got (s.chan c) ys = [] →
      Spec.Udp.got (s.chan c) ((.recv (s.chan c'), w) :: ys) = Spec.Node.reads c [(x, o)] := by
    intro c' r w ys hx hr hy
    have h1 := h.inj c' c (hlt (by rw [hx]; rfl)) hc
    have h2 : Spec.Udp.got (s.chan c) ((.recv (s.chan c'), w) :: ys) =
        Spec.Udp.got (s.chan c) [(.recv (s.chan c'), w)] := by
      rw [show (Udp.Action.recv (s.chan c'), w) :: ys = [(Udp.Action.recv (s.chan c'), w)] ++ ys
        from rfl, Udp.got_append, hy, List.append_nil]
    rw [h2, hx]
    have h3 : s.chan c' = s.chan c ↔ c' = c := ⟨h1, fun h => by rw [h]⟩
    cases w <;> simp only [received, Option.some.injEq, reduceCtorEq] at hr <;> subst hr
    · by_cases hcc : c' = c
      · simp [Spec.Udp.got, Spec.Udp.seen, Spec.Node.reads, hcc]
      · simp [Spec.Udp.got, Spec.Udp.seen, Spec.Node.reads, hcc, h3]
    · by_cases hcc : s.chan c' = s.chan c
      · simp [Spec.Udp.got, Spec.Udp.seen, Spec.Node.reads, hcc]
      · simp [Spec.Udp.got, Spec.Udp.seen, Spec.Node.reads, hcc]
    · rfl
  cases k with
  | recv c' r v w hx hr ha hu => exact recv hx hr rfl
  | recvEnd c' r v v' w w' hx hr ha hu hu' => exact recv hx hr rfl
  | still k1 k2 k3 k4 k5 k6 k7 => rw [quiet k5]; rfl
  | connect c' a v d b hx ho hu => rw [quiet (by rw [hx]; nofun)]; rfl
  | accept l a v d hx hu => rw [quiet (by rw [hx]; nofun)]; rfl
  | close v w hx ho hu => rw [quiet (by rw [hx]; nofun)]; rfl
  | listen v d hx ho1 ho2 hl' hu => rw [quiet (by rw [hx]; nofun)]; rfl
  | acceptNone l v v' w hx hu hu' => rw [quiet (by rw [hx]; nofun)]; rfl
  | stop l v w hx ha hu => rw [quiet (by rw [hx]; nofun)]; rfl
  | drop c' v w hx ha hu => rw [quiet (by rw [hx]; nofun)]; rfl
  | send c' ok b hx hb ha hl => rw [quiet (by rw [hx]; nofun)]; rfl
  | sendEnd c' ok b v w hx hb ha hl hu => rw [quiet (by rw [hx]; nofun)]; rfl

theorem Call.connection (k : Call s x e o s' us out') (t : Udp.Tables s.udp) {c : Nat} {a : Addr}
    (m : Ep.Move true s.ep x o e) (h : o = .opened c a) :
    (s'.chan c, a) ∈ Spec.Udp.connections us ∧ (s.udp.chans (s'.chan c)).held = false ∧
      Spec.Udp.got (s'.chan c) us = [] ∧ Spec.Node.reads c [(x, o)] = [] := by
  cases k with
  | connect c' a v d b hx ho hu =>
    subst ho
    cases h
    have mu := Udp.move_of_step hu
    simp only [upd_same]
    refine ⟨?_, ?_, rfl, by subst hx; rfl⟩
    · cases mu; exact List.mem_singleton_self _
    · cases mu; exact (t.high _ (Nat.le_refl _)).2.2.2
  | accept l a v d hx hu =>
    subst hx
    have h5 : o = .opened s.ep.connCount a := by cases m; rfl
    rw [h5] at h
    cases h
    have mu := Udp.move_of_step hu
    simp only [upd_same]
    refine ⟨List.mem_singleton_self _, ?_, rfl, rfl⟩
    cases mu with
    | accept _ _ _ q hl hrx hq =>
      exact (t.queues (s.backlog l) (d, a) (by rw [hq]; exact List.mem_cons_self)).2.2.2
  | still k1 k2 k3 k4 k5 k6 k7 =>
    rcases m.grows with ⟨b, _, _, _, _, h6 | ⟨l, h6⟩⟩ | ⟨h6, _⟩
    · exact absurd h ((k1 _ h6).2.2 _ _)
    · exact absurd h6 (k2 _ _)
    · exact absurd h (h6 _ _)
  | close v w hx ho hu => rw [ho] at h; cases h
  | listen v d hx ho1 ho2 hl' hu => exact absurd h (ho1 _ _)
  | acceptNone l v v' w hx hu hu' => subst hx h; cases m
  | stop l v w hx ha hu => subst hx h; cases m
  | recv c' r v w hx hr ha hu => subst hx h; cases m
  | recvEnd c' r v v' w w' hx hr ha hu hu' => subst hx h; cases m
  | drop c' v w hx ha hu => subst hx h; cases m
  | send c' ok b hx hb ha hl => subst hx h; cases m
  | sendEnd c' ok b v w hx hb ha hl hu => subst hx h; cases m

theorem Call.out (k : Call s x e o s' us out') (m : Ep.Move true s.ep x o e) {a : Addr} {b : Bytes}
    (h : (a, b) ∈ out') : ∃ c ok, x = .sent c ok ∧ o = .wire b ok ∧ (s.ep.conns c).out = some b ∧
      (s.ep.conns c).addr = a ∧ b.length ≤ 1400 := by
  cases k with
  | send c' ok b' hx hb ha hl =>
    split at h
    · cases List.mem_singleton.mp h
      refine ⟨c', ok, hx, ?_, hb, rfl, ‹_›⟩
      subst hx
      cases m <;> grind
    · cases h
  | sendEnd c' ok b' v w hx hb ha hl hu =>
    split at h
    · cases List.mem_singleton.mp h
      refine ⟨c', ok, hx, ?_, hb, rfl, ‹_›⟩
      subst hx
      cases m <;> grind
    · cases h
  | _ => cases h

theorem shown_append {t u : Spec.Ep.Trace} {w : Ep.Obs} :
    Spec.Ep.Shown (t ++ u) w ↔ Spec.Ep.Shown t w ∨ Spec.Ep.Shown u w := by
  simp only [Spec.Ep.Shown, List.mem_append]
  constructor
  · rintro ⟨x, h | h⟩
    · exact .inl ⟨x, h⟩
    · exact .inr ⟨x, h⟩
  · rintro (⟨x, h⟩ | ⟨x, h⟩)
    · exact ⟨x, .inl h⟩
    · exact ⟨x, .inr h⟩

theorem onWire_append (c : Nat) (t u : Spec.Ep.Trace) :
    Spec.Ep.onWire c (t ++ u) = Spec.Ep.onWire c t ++ Spec.Ep.onWire c u := by
  simp only [Spec.Ep.onWire, List.filterMap_append]

theorem app_app (x : Ep.Action) (o : Ep.Obs) (us : List (Udp.Action × Udp.Obs))
    (ys : List (Addr × Bytes)) : app [(.app x, ⟨some o, us, ys⟩)] = [(x, o)] := rfl

/-- What the endpoint and the socket saw. -/
structure Told (tr : Trace) (s : State) : Prop where
  opened : ∀ c a, Spec.Ep.Shown (app tr) (.opened c a) → c < s.ep.connCount ∧
    (s.chan c, a) ∈ Spec.Udp.connections (socket tr)
  reads : ∀ c, c < s.ep.connCount → reads c (app tr) = Spec.Udp.got (s.chan c) (socket tr)
  high : ∀ c, s.ep.connCount ≤ c → Spec.Node.reads c (app tr) = []
  out : ∀ a b, (a, b) ∈ out tr → ∃ c, Spec.Ep.Shown (app tr) (.opened c a) ∧
    b ∈ Spec.Ep.onWire c (app tr) ∧ b.length ≤ 1400

theorem told {tr : Trace} {s : State} (e : Exec step init tr s) : Told tr s := by
  induction e with
  | nil => exact ⟨fun c a h => (nomatch h.choose_spec), fun c hc => (nomatch hc), fun _ _ => rfl,
      fun a b h => (nomatch h)⟩
  | @snoc tr1 s1 s2 act ob e1 hs ih =>
    obtain ⟨e2, e3⟩ := parts e1
    obtain ⟨hg, hh⟩ := Ep.good_hist e2
    have t := (Udp.exec_inv e3).1
    have hl := link e1
    cases move_of_step hs with
    | app x e o _ us out' he hc =>
      have m := Ep.move_of_step he
      have mono : s1.ep.connCount ≤ s2.ep.connCount := by
        rw [hc.ep]
        rcases m.grows with ⟨_, _, h2, _⟩ | ⟨_, _, h2, _⟩ <;> omega
      have hsok : socket (tr1 ++ [(.app x, ⟨some o, us, out'⟩)]) = socket tr1 ++ us :=
        socket_snoc ..
      constructor
      · intro c a h
        rw [app_snoc, app_app, shown_append] at h
        rw [hsok, Udp.connections_append]
        rcases h with h | ⟨y, h⟩
        · obtain ⟨h1, h2⟩ := ih.opened c a h
          rw [hc.chan m h1]
          exact ⟨by omega, List.mem_append_left _ h2⟩
        · have ho : Ep.Obs.opened c a = o := (Prod.mk.inj (List.mem_singleton.mp h)).2
          refine ⟨?_, List.mem_append_right _ (hc.connection t m ho.symm).1⟩
          rw [hc.ep]
          subst ho
          obtain ⟨rfl, h2, _⟩ := opened_lt m
          omega
      · intro c hcc
        rw [app_snoc, app_app, reads_snoc, hsok, Udp.got_append]
        by_cases h1 : c < s1.ep.connCount
        · rw [hc.chan m h1, ← ih.reads c h1, hc.reads hl hg m h1]
        · have h2 : o = .opened c (e.conns c).addr := by
            rw [hc.ep] at hcc
            rcases m.grows with ⟨b, rfl, h2, h3, h4, _⟩ | ⟨_, _, h2, _⟩
            · have : c = s1.ep.connCount := by omega
              subst this
              rw [h3]
              rfl
            · omega
          obtain ⟨_, h3, h4, h5⟩ := hc.connection t m h2
          rw [h4, h5, ih.high c (by omega), Spec.Udp.got, Udp.seen_held e3 _ h3]
          rfl
      · intro c hcc
        rw [app_snoc, app_app, reads_snoc, ih.high c (by omega)]
        have : ∀ r, x ≠ .packet c r := by
          rintro r rfl
          have := conn_lt hg m (c := c) rfl
          omega
        cases x with
        | packet d r =>
          cases r with
          | packet b =>
            simp only [Spec.Node.reads, List.nil_append]
            rw [List.filterMap_cons_none]
            · rfl
            · dsimp only
              rw [if_neg]
              rintro rfl
              exact this _ rfl
          | _ => rfl
        | _ => rfl
      · intro a b h
        rw [out_snoc] at h
        rw [app_snoc, app_app]
        rcases List.mem_append.mp h with h | h
        · obtain ⟨c, h1, h2, h3⟩ := ih.out a b h
          exact ⟨c, shown_append.mpr (.inl h1), by rw [onWire_append]; exact List.mem_append_left _ h2, h3⟩
        · obtain ⟨c, ok, hx, ho, h1, h2, h3⟩ := hc.out m h
          have hcc : c < s1.ep.connCount := conn_lt hg m (by rw [hx]; rfl)
          refine ⟨c, shown_append.mpr (.inl ?_), ?_, h3⟩
          · rw [← h2]
            exact hh.conns c hcc
          · rw [onWire_append, hx, ho]
            refine List.mem_append_right _ ?_
            simp [Spec.Ep.onWire]
    | net _ u v w ha hn hd hu =>
      have h1 : app [(act, (⟨none, [(u, w)], []⟩ : Obs))] = [] := by
        cases act <;> rfl
      have h2 : ∀ d, Spec.Udp.got d [(u, w)] = [] := by
        rcases hn with rfl | rfl | ⟨b, p, rfl⟩ <;> intro d <;> rfl
      constructor
      · intro c a h
        rw [app_snoc, h1, List.append_nil] at h
        rw [socket_snoc, Udp.connections_append]
        obtain ⟨h3, h4⟩ := ih.opened c a h
        exact ⟨h3, List.mem_append_left _ h4⟩
      · intro c hcc
        rw [app_snoc, h1, List.append_nil, socket_snoc, Udp.got_append, h2, List.append_nil]
        exact ih.reads c hcc
      · intro c hcc
        rw [app_snoc, h1, List.append_nil]
        exact ih.high c hcc
      · intro a b h
        rw [out_snoc, List.append_nil] at h
        rw [app_snoc, h1, List.append_nil]
        exact ih.out a b h

end Node

end Rsomeip.Rt
