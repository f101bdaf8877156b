import Verif.Lemmas.Node
import Verif.Lemmas.UdpHist
import Verif.Lemmas.EpHist

/-! # How the endpoint's connections and the socket's channels belong together -/

namespace Rsomeip.Rt

namespace Ep

variable {dg : Bool} {s s' : State} {a : Action} {o : Obs}

/-- The connection whose task takes a step that can be its last. -/
def Action.conn : Action → Option Nat
  | .packet c _ => some c
  | .connCmd c => some c
  | .sent c _ => some c
  | _ => none

theorem Move.grows (m : Move dg s a o s') :
    (∃ b, o = .opened s.connCount b ∧ s'.connCount = s.connCount + 1 ∧
      s'.conns s.connCount = newConn b ∧ (∀ d, d ≠ s.connCount → s'.conns d = s.conns d) ∧
      (a = .ep true ∨ ∃ l, a = .accept l b)) ∨
    ((∀ c b, o ≠ .opened c b) ∧ (∀ l b, a ≠ .accept l b) ∧ s'.connCount = s.connCount ∧
      (∀ c, (s'.conns c).addr = (s.conns c).addr) ∧
      ∀ c, (s'.conns c).alive = (s.conns c).alive ∨
        (s'.conns c).alive = false ∧ a.conn = some c) := by
  cases m <;> first
    | exact .inl ⟨_, rfl, rfl, upd_same .., fun d hd => upd_ne _ _ hd, .inl rfl⟩
    | exact .inl ⟨_, rfl, rfl, upd_same .., fun d hd => upd_ne _ _ hd, .inr ⟨_, rfl⟩⟩
    | exact .inr ⟨by intro c b h; cases h, nofun, rfl, fun c => rfl, fun c => .inl rfl⟩
    | (refine .inr ⟨?_, nofun, rfl, ?_, ?_⟩
       · intro c b; intro h; first | (cases h; done) | (split at h <;> cases h)
       · intro c; grind [upd, Conn.ended]
       · intro c; grind [upd, Conn.ended, Action.conn])

theorem Move.listens (m : Move dg s a o s') :
    (a = .ep true ∧ o = .none ∧ s'.lisCount = s.lisCount + 1 ∧ s'.listener = some s.lisCount ∧
      s'.liss s.lisCount = newLis ∧ ∀ l, l ≠ s.lisCount → s'.liss l = s.liss l) ∨
    (s'.lisCount = s.lisCount ∧ s'.listener = s.listener ∧
      ∀ l, (s'.liss l).alive = (s.liss l).alive ∨
        (s'.liss l).alive = false ∧ (s.liss l).alive = true ∧ (a = .acceptNone l ∨ a = .lisCmd l)) := by
  cases m <;> first
    | exact .inr ⟨rfl, rfl, fun l => .inl rfl⟩
    | exact .inl ⟨rfl, rfl, rfl, rfl, upd_same .., fun d hd => upd_ne _ _ hd⟩
    | (refine .inr ⟨rfl, rfl, ?_⟩
       intro l; grind [upd, deadLis])

theorem Move.stops (m : Move dg s a o s') :
    (s'.pc = .stopped ∧ s.pc ≠ .stopped ∧ o = .ended ∧ ∃ ok, a = .ep ok) ∨
    ((s'.pc = .stopped ↔ s.pc = .stopped) ∧ ∀ ok, a = .ep ok → o ≠ .ended ∧ s.pc ≠ .stopped) := by
  cases m <;> first
    | exact .inr ⟨.rfl, nofun⟩
    | (refine .inl ⟨rfl, ?_, rfl, _, rfl⟩
       have hpc := ‹s.pc = _›
       rw [hpc]
       nofun)
    | (have hpc := ‹s.pc = _›
       refine .inr ⟨?_, ?_⟩
       · rw [hpc]; exact ⟨nofun, nofun⟩
       · rw [hpc]; exact fun ok _ => ⟨nofun, nofun⟩)

end Ep

namespace Udp

variable {s s' : State} {a : Action} {o : Obs}

theorem Move.held (t : Tables s) (m : Move s a o s') {c : Nat} (hc : c < s.chanCount)
    (hh : (s.chans c).held = true) :
    c < s'.chanCount ∧ (s'.chans c).held = true ∧ (s'.chans c).peer = (s.chans c).peer ∧
      (a ≠ .dropReceiver c → (s'.chans c).rx = (s.chans c).rx) ∧
      (a = .dropReceiver c → (s'.chans c).rx = false) := by
  have h3 := t.queues
  cases m <;> grind [upd, Chan.push_held, Chan.push_peer, Chan.push_rx]

theorem Move.backlog (m : Move s a o s') {l : Nat} (hl : l < s.backlogCount) :
    l < s'.backlogCount ∧ (a ≠ .dropListener l → (s'.backlogs l).rx = (s.backlogs l).rx) ∧
      (a = .dropListener l → (s'.backlogs l).rx = false) := by
  cases m <;> grind [upd]

theorem Move.listener (m : Move s a o s') : s'.listener = s.listener ∨
    (∃ n, a = .listen n ∧ o = .listening s.backlogCount ∧ s'.listener = some s.backlogCount) ∨
    (s'.listener = none ∧ ∃ l, s.listener = some l ∧ (s.backlogs l).rx = false ∧ a = .task) := by
  cases m <;> grind

theorem Move.owner (m : Move s a o s') : (a = .close ∧ s.owner = true ∧ s'.owner = false) ∨
    (a ≠ .close ∧ s'.owner = s.owner) := by
  cases m <;> grind

theorem step_count (m : Move s a o s') : s.chanCount ≤ s'.chanCount := by
  cases m <;> grind

end Udp

namespace Node

open Spec.Node

/-- Connections and channels, listeners and queues belong together. -/
structure Link (s : State) : Prop where
  chan : ∀ c, c < s.ep.connCount → s.chan c < s.udp.chanCount ∧
    (s.udp.chans (s.chan c)).held = true ∧ (s.udp.chans (s.chan c)).peer = (s.ep.conns c).addr ∧
    (s.udp.chans (s.chan c)).rx = (s.ep.conns c).alive
  inj : ∀ c d, c < s.ep.connCount → d < s.ep.connCount → s.chan c = s.chan d → c = d
  backlog : ∀ l, l < s.ep.lisCount → s.backlog l < s.udp.backlogCount ∧
    (s.udp.backlogs (s.backlog l)).rx = (s.ep.liss l).alive
  backInj : ∀ l k, l < s.ep.lisCount → k < s.ep.lisCount → s.backlog l = s.backlog k → l = k
  owner : s.udp.owner = true ↔ s.ep.pc ≠ .stopped
  listener : ∀ l, s.ep.listener = some l → l < s.ep.lisCount ∧
    ((s.ep.liss l).alive = true → s.udp.listener = some (s.backlog l))

theorem Link.init : Link init := by
  constructor <;> simp [Node.init, Ep.init, Udp.init]

variable {s s' : State} {x : Ep.Action} {e : Ep.State} {o : Ep.Obs}
  {us : List (Udp.Action × Udp.Obs)} {out : List (Addr × Bytes)}

theorem Link.net {u : Udp.Action} {w : Udp.Obs} {v : Udp.State} (h : Link s) (t : Udp.Tables s.udp)
    (m : Udp.Move s.udp u w v) (hn : u = .task ∨ u = .failure ∨ ∃ b p, u = .datagram b p) :
    Link { s with udp := v } := by
  have h1 := @Udp.Move.held _ _ _ _ t m
  have h2 := @Udp.Move.backlog _ _ _ _ m
  have h3 := m.listener
  have h4 := m.owner
  obtain ⟨l1, l2, l3, l4, l5, l6⟩ := h
  constructor
  · intro c hc
    have := l1 c hc
    have := h1 this.1 this.2.1
    rcases hn with rfl | rfl | ⟨b, p, rfl⟩ <;> grind
  · exact l2
  · intro l hl
    have := l3 l hl
    have := h2 this.1
    rcases hn with rfl | rfl | ⟨b, p, rfl⟩ <;> grind
  · exact l4
  · rcases hn with rfl | rfl | ⟨b, p, rfl⟩ <;> grind
  · intro l hl
    have h6 := l6 l hl
    have := l3 l h6.1
    refine ⟨h6.1, fun ha => ?_⟩
    rcases hn with rfl | rfl | ⟨b, p, rfl⟩ <;> grind

/-- What happens to the connections when none is opened. -/
def Same (s : State) (x : Ep.Action) (e : Ep.State) : Prop :=
  e.connCount = s.ep.connCount ∧ (∀ c, (e.conns c).addr = (s.ep.conns c).addr) ∧
    ∀ c, (e.conns c).alive = (s.ep.conns c).alive ∨ (e.conns c).alive = false ∧ x.conn = some c

theorem same_of_move (m : Ep.Move true s.ep x o e) (h1 : ∀ c a, o ≠ .opened c a) :
    Same s x e := by
  rcases m.grows with ⟨b, rfl, _⟩ | ⟨_, _, h2⟩
  · exact absurd rfl (h1 _ _)
  · exact h2

theorem opened_lt {c : Nat} {a : Addr} (m : Ep.Move true s.ep x (.opened c a) e) :
    c = s.ep.connCount ∧ e.connCount = s.ep.connCount + 1 ∧ e.conns s.ep.connCount = Ep.newConn a ∧
      ∀ d, d ≠ s.ep.connCount → e.conns d = s.ep.conns d := by
  rcases m.grows with ⟨b, h, h2, h3, h4, _⟩ | ⟨h1, _⟩
  · cases h
    exact ⟨rfl, h2, h3, h4⟩
  · exact absurd rfl (h1 _ _)

theorem conn_lt (hg : Ep.Good s.ep) (m : Ep.Move true s.ep x o e) {c : Nat} (h : x.conn = some c) :
    c < s.ep.connCount := by
  have h1 := fun d => @Ep.alive_lt _ hg.fresh d
  have h2 := hg.ended.conns
  cases m <;> simp only [Ep.Action.conn, Option.some.injEq, reduceCtorEq] at h <;> subst h <;>
    first | exact h1 _ ‹_› | (apply h1; grind)

theorem Link.app_chan (h : Link s) (hg : Ep.Good s.ep) (t : Udp.Tables s.udp)
    (m : Ep.Move true s.ep x o e) (k : Call s x e o s' us out) :
    ∀ c, c < s'.ep.connCount → s'.chan c < s'.udp.chanCount ∧
      (s'.udp.chans (s'.chan c)).held = true ∧
      (s'.udp.chans (s'.chan c)).peer = (s'.ep.conns c).addr ∧
      (s'.udp.chans (s'.chan c)).rx = (s'.ep.conns c).alive := by
  intro c hc
  have h1 := h.chan c
  have hlt := @conn_lt _ _ _ _ hg m
  have held := fun {u w v} (m : Udp.Move s.udp u w v) => @Udp.Move.held _ _ _ _ t m (s.chan c)
  cases k with
  | connect c' a v d b hx ho hu =>
    subst ho
    obtain ⟨rfl, h2, h3, h4⟩ := opened_lt m
    have mu := Udp.move_of_step hu
    have hd := held mu
    simp only [h2] at hc
    by_cases hcc : c = s.ep.connCount
    · subst hcc
      simp only [upd_same, h3]
      cases mu
      simp [Ep.newConn, upd_same]
    · simp only [upd_ne _ _ hcc, h4 c hcc]
      grind
  | accept l a v d hx hu =>
    subst hx
    have h5 : o = .opened s.ep.connCount a := by cases m; rfl
    subst h5
    obtain ⟨-, h2, h3, h4⟩ := opened_lt m
    have mu := Udp.move_of_step hu
    have hd := held mu
    simp only [h2] at hc
    by_cases hcc : c = s.ep.connCount
    · subst hcc
      simp only [upd_same, h3]
      cases mu with
      | accept _ _ _ q hl hrx hq =>
        have h6 := t.queues (s.backlog l) (d, a) (by rw [hq]; exact List.mem_cons_self)
        simp only [upd_same, Ep.newConn]
        exact ⟨h6.1, trivial, h6.2.1, h6.2.2.1⟩
    · simp only [upd_ne _ _ hcc, h4 c hcc]
      grind
  | close v w hx ho hu =>
    subst hx ho
    obtain ⟨h2, h3, h4⟩ := same_of_move m nofun
    have hd := held (Udp.move_of_step hu)
    have := h4 c
    grind [Ep.Action.conn]
  | listen v d hx ho1 ho2 hl hu =>
    subst hx
    obtain ⟨h2, h3, h4⟩ := same_of_move m ho1
    have hd := held (Udp.move_of_step hu)
    have := h4 c
    grind [Ep.Action.conn]
  | acceptNone l v v' w hx hu hu' =>
    subst hx
    have h5 : o = .ended := by cases m; rfl
    obtain ⟨h2, h3, h4⟩ := same_of_move m (by rw [h5]; nofun)
    have mu := Udp.move_of_step hu
    have hd := held mu
    have hd' := @Udp.Move.held _ _ _ _ (Udp.tables_step t mu) (Udp.move_of_step hu') (s.chan c)
    have := h4 c
    grind [Ep.Action.conn]
  | stop l v w hx ha hu =>
    have h5 : ∀ c a, o ≠ .opened c a := by subst hx; cases m <;> nofun
    obtain ⟨h2, h3, h4⟩ := same_of_move m h5
    have hd := held (Udp.move_of_step hu)
    have := h4 c
    grind [Ep.Action.conn]
  | recv c' r v w hx hr ha hu =>
    have h5 : ∀ c a, o ≠ .opened c a := by subst hx; cases m <;> nofun
    obtain ⟨h2, h3, h4⟩ := same_of_move m h5
    have hd := held (Udp.move_of_step hu)
    have := h4 c
    grind [Ep.Action.conn]
  | recvEnd c' r v v' w w' hx hr ha hu hu' =>
    have h5 : ∀ c a, o ≠ .opened c a := by subst hx; cases m <;> nofun
    obtain ⟨h2, h3, h4⟩ := same_of_move m h5
    have mu := Udp.move_of_step hu
    have hd := held mu
    have hd' := @Udp.Move.held _ _ _ _ (Udp.tables_step t mu) (Udp.move_of_step hu') (s.chan c)
    have := h4 c
    have hlt := hlt (c := c') (by rw [hx]; rfl)
    have hinj := h.inj c c'
    grind [Ep.Action.conn]
  | drop c' v w hx ha hu =>
    have h5 : ∀ c a, o ≠ .opened c a := by subst hx; cases m <;> nofun
    obtain ⟨h2, h3, h4⟩ := same_of_move m h5
    have hd := held (Udp.move_of_step hu)
    have := h4 c
    have hlt := hlt (c := c') (by rw [hx]; rfl)
    have hinj := h.inj c c'
    grind [Ep.Action.conn]
  | send c' ok b hx hb ha hl =>
    have h5 : ∀ c a, o ≠ .opened c a := by subst hx; cases m <;> nofun
    obtain ⟨h2, h3, h4⟩ := same_of_move m h5
    have := h4 c
    grind [Ep.Action.conn]
  | sendEnd c' ok b v w hx hb ha hl hu =>
    have h5 : ∀ c a, o ≠ .opened c a := by subst hx; cases m <;> nofun
    obtain ⟨h2, h3, h4⟩ := same_of_move m h5
    have hd := held (Udp.move_of_step hu)
    have := h4 c
    have hlt := hlt (c := c') (by rw [hx]; rfl)
    have hinj := h.inj c c'
    grind [Ep.Action.conn]
  | still k1 k2 k3 k4 k5 k6 k7 =>
    have h5 : ∀ c a, o ≠ .opened c a := by
      rcases m.grows with ⟨b, h, _, _, _, h6 | ⟨l, h6⟩⟩ | ⟨h, _⟩
      · exact (k1 _ h6).2.2
      · exact absurd h6 (k2 _ _)
      · exact h
    obtain ⟨h2, h3, h4⟩ := same_of_move m h5
    have h7 : (e.conns c).alive = (s.ep.conns c).alive := by
      rcases h4 c with h8 | ⟨h8, h9⟩
      · exact h8
      · cases x <;> simp only [Ep.Action.conn, Option.some.injEq, reduceCtorEq] at h9 <;> subst h9
        · exact absurd rfl (k5 _ _)
        · rw [k6 _ rfl] at h8; cases h8
        · exact absurd rfl (k7 _ _)
    grind

theorem Link.app_inj (h : Link s) (t : Udp.Tables s.udp)
    (m : Ep.Move true s.ep x o e) (k : Call s x e o s' us out) :
    ∀ c d, c < s'.ep.connCount → d < s'.ep.connCount → s'.chan c = s'.chan d → c = d := by
  have h1 := h.chan
  have h2 := h.inj
  intro c d hc hd
  have grow : (∀ c a, o ≠ .opened c a) → e.connCount = s.ep.connCount :=
    fun h => (same_of_move m h).1
  cases k with
  | connect c' a v d' b hx ho hu =>
    subst ho
    obtain ⟨rfl, h3, _⟩ := opened_lt m
    simp only [h3] at hc hd
    cases Udp.move_of_step hu
    have := h1 c
    have := h1 d
    have := h2 c d
    grind [upd]
  | accept l a v d' hx hu =>
    subst hx
    have h5 : o = .opened s.ep.connCount a := by cases m; rfl
    subst h5
    obtain ⟨-, h3, _⟩ := opened_lt m
    simp only [h3] at hc hd
    cases Udp.move_of_step hu with
    | accept _ _ _ q hl hrx hq =>
      have h6 := (t.queues (s.backlog l) (d', a) (by rw [hq]; exact List.mem_cons_self)).2.2.2
      dsimp only at h6
      have := h1 c
      have := h1 d
      have := h2 c d
      grind [upd]
  | close v w hx ho hu => rw [grow (by rw [ho]; nofun)] at hc hd; exact h2 c d hc hd
  | listen v d' hx ho1 ho2 hl hu => rw [grow ho1] at hc hd; exact h2 c d hc hd
  | acceptNone l v v' w hx hu hu' =>
    rw [grow (by subst hx; cases m <;> nofun)] at hc hd; exact h2 c d hc hd
  | stop l v w hx ha hu =>
    rw [grow (by subst hx; cases m <;> nofun)] at hc hd; exact h2 c d hc hd
  | recv c' r v w hx hr ha hu =>
    rw [grow (by subst hx; cases m <;> nofun)] at hc hd; exact h2 c d hc hd
  | recvEnd c' r v v' w w' hx hr ha hu hu' =>
    rw [grow (by subst hx; cases m <;> nofun)] at hc hd; exact h2 c d hc hd
  | drop c' v w hx ha hu =>
    rw [grow (by subst hx; cases m <;> nofun)] at hc hd; exact h2 c d hc hd
  | send c' ok b hx hb ha hl =>
    rw [grow (by subst hx; cases m <;> nofun)] at hc hd; exact h2 c d hc hd
  | sendEnd c' ok b v w hx hb ha hl hu =>
    rw [grow (by subst hx; cases m <;> nofun)] at hc hd; exact h2 c d hc hd
  | still k1 k2 k3 k4 k5 k6 k7 =>
    have h5 : ∀ c a, o ≠ .opened c a := by
      rcases m.grows with ⟨b, h, _, _, _, h6 | ⟨l, h6⟩⟩ | ⟨h, _⟩
      · exact (k1 _ h6).2.2
      · exact absurd h6 (k2 _ _)
      · exact h
    rw [grow h5] at hc hd; exact h2 c d hc hd

/-- What happens to the listeners when none is made. -/
def SameLis (s : State) (x : Ep.Action) (e : Ep.State) : Prop :=
  e.lisCount = s.ep.lisCount ∧ e.listener = s.ep.listener ∧
    ∀ l, (e.liss l).alive = (s.ep.liss l).alive ∨
      (e.liss l).alive = false ∧ (s.ep.liss l).alive = true ∧ (x = .acceptNone l ∨ x = .lisCmd l)

theorem sameLis_of_move (m : Ep.Move true s.ep x o e) (h : e.lisCount = s.ep.lisCount) :
    SameLis s x e := by
  rcases m.listens with ⟨_, _, h2, _⟩ | h2
  · omega
  · exact h2

theorem newLis_of_move (m : Ep.Move true s.ep x o e) (h : e.lisCount ≠ s.ep.lisCount) :
    x = .ep true ∧ o = .none ∧ e.lisCount = s.ep.lisCount + 1 ∧ e.listener = some s.ep.lisCount ∧
      e.liss s.ep.lisCount = Ep.newLis ∧ ∀ l, l ≠ s.ep.lisCount → e.liss l = s.ep.liss l := by
  rcases m.listens with h2 | ⟨h2, _⟩
  · exact h2
  · exact absurd h2 h

theorem lis_lt (hg : Ep.Good s.ep) {l : Nat} (h : (s.ep.liss l).alive = true) :
    l < s.ep.lisCount := by
  rcases Nat.lt_or_ge l s.ep.lisCount with h1 | h1
  · exact h1
  · have := hg.fresh.liss l h1
    grind

theorem Link.app_backlog (h : Link s) (hg : Ep.Good s.ep)
    (m : Ep.Move true s.ep x o e) (k : Call s x e o s' us out) :
    ∀ l, l < s'.ep.lisCount → s'.backlog l < s'.udp.backlogCount ∧
      (s'.udp.backlogs (s'.backlog l)).rx = (s'.ep.liss l).alive := by
  intro l hl
  have h1 := h.backlog l
  have h2 := fun k => h.backInj l k
  have hlt := fun k => @lis_lt _ hg k
  have back := fun {u w v} (m : Udp.Move s.udp u w v) => @Udp.Move.backlog _ _ _ _ m (s.backlog l)
  by_cases hn : e.lisCount = s.ep.lisCount
  · obtain ⟨h3, -, h5⟩ := sameLis_of_move m hn
    have h5 := h5 l
    cases k with
    | connect c a v d b hx ho hu => have hd := back (Udp.move_of_step hu); grind
    | accept l' a v d hx hu => have hd := back (Udp.move_of_step hu); grind
    | close v w hx ho hu => have hd := back (Udp.move_of_step hu); grind
    | listen v d hx ho1 ho2 hl' hu => exact absurd hn hl'
    | acceptNone l' v v' w hx hu hu' =>
      have hd := back (Udp.move_of_step hu)
      have hd' := @Udp.Move.backlog _ _ _ _ (Udp.move_of_step hu') (s.backlog l)
      have h7 : (s.ep.liss l').alive = true ∧ (e.liss l').alive = false := by
        subst hx; cases m; exact ⟨‹_›, by simp [upd_same, Ep.deadLis]⟩
      have h8 := h2 l'
      have h9 := hlt l'
      grind
    | stop l' v w hx ha hu =>
      have hd := back (Udp.move_of_step hu)
      have h7 : (s.ep.liss l').alive = true := by subst hx; cases m <;> assumption
      have h8 := h2 l'
      have h9 := hlt l'
      grind
    | recv c' r v w hx hr ha hu => have hd := back (Udp.move_of_step hu); grind
    | recvEnd c' r v v' w w' hx hr ha hu hu' =>
      have hd := back (Udp.move_of_step hu)
      have hd' := @Udp.Move.backlog _ _ _ _ (Udp.move_of_step hu') (s.backlog l)
      grind
    | drop c' v w hx ha hu => have hd := back (Udp.move_of_step hu); grind
    | send c' ok b hx hb ha hl => grind
    | sendEnd c' ok b v w hx hb ha hl hu => have hd := back (Udp.move_of_step hu); grind
    | still k1 k2 k3 k4 k5 k6 k7 =>
      have := k3 l
      have := k4 l
      grind
  · obtain ⟨hx, ho, h3, h4, h5, h6⟩ := newLis_of_move m hn
    cases k with
    | listen v d hx ho1 ho2 hl' hu =>
      have mu := Udp.move_of_step hu
      have hd := back mu
      simp only [h3] at hl
      by_cases hc : l = s.ep.lisCount
      · subst hc
        simp only [upd_same, h5]
        cases mu
        simp [Ep.newLis, upd_same]
      · simp only [upd_ne _ _ hc, h6 l hc]
        grind
    | still k1 => exact absurd (k1 _ hx).1 hn
    | connect c a v d b hx' ho' hu => rw [ho] at ho'; cases ho'
    | close v w hx ho' hu => rw [ho] at ho'; cases ho'
    | accept _ _ _ _ hx' => rw [hx] at hx'; cases hx'
    | acceptNone _ _ _ _ hx' => rw [hx] at hx'; cases hx'
    | stop _ _ _ hx' => rw [hx] at hx'; cases hx'
    | recv _ _ _ _ hx' => rw [hx] at hx'; cases hx'
    | recvEnd _ _ _ _ _ _ hx' => rw [hx] at hx'; cases hx'
    | drop _ _ _ hx' => rw [hx] at hx'; cases hx'
    | send _ _ _ hx' => rw [hx] at hx'; cases hx'
    | sendEnd _ _ _ _ _ hx' => rw [hx] at hx'; cases hx'

theorem Link.app_backInj (h : Link s) (m : Ep.Move true s.ep x o e) (k : Call s x e o s' us out) :
    ∀ l k, l < s'.ep.lisCount → k < s'.ep.lisCount → s'.backlog l = s'.backlog k → l = k := by
  intro l j hl hj
  have h1 := h.backlog
  have h2 := h.backInj l j
  rw [k.ep] at hl hj
  by_cases hn : e.lisCount = s.ep.lisCount
  · rw [hn] at hl hj
    cases k <;> first | exact h2 hl hj | exact absurd hn ‹_›
  · obtain ⟨hx, ho, h3, h4, h5, h6⟩ := newLis_of_move m hn
    rw [h3] at hl hj
    cases k with
    | listen v d hx ho1 ho2 hl' hu =>
      cases Udp.move_of_step hu
      have := h1 l
      have := h1 j
      grind [upd]
    | still k1 => exact absurd (k1 _ hx).1 hn
    | connect c a v d b hx' ho' hu => rw [ho] at ho'; cases ho'
    | close v w hx ho' hu => rw [ho] at ho'; cases ho'
    | accept _ _ _ _ hx' => rw [hx] at hx'; cases hx'
    | acceptNone _ _ _ _ hx' => rw [hx] at hx'; cases hx'
    | stop _ _ _ hx' => rw [hx] at hx'; cases hx'
    | recv _ _ _ _ hx' => rw [hx] at hx'; cases hx'
    | recvEnd _ _ _ _ _ _ hx' => rw [hx] at hx'; cases hx'
    | drop _ _ _ hx' => rw [hx] at hx'; cases hx'
    | send _ _ _ hx' => rw [hx] at hx'; cases hx'
    | sendEnd _ _ _ _ _ hx' => rw [hx] at hx'; cases hx'

theorem Link.app_owner (h : Link s) (m : Ep.Move true s.ep x o e) (k : Call s x e o s' us out) :
    s'.udp.owner = true ↔ s'.ep.pc ≠ .stopped := by
  have h1 := h.owner
  have h2 := m.stops
  have owner := fun {u w v} (m : Udp.Move s.udp u w v) => @Udp.Move.owner _ _ _ _ m
  cases k with
  | connect c a v d b hx ho hu => have hd := owner (Udp.move_of_step hu); grind
  | accept l' a v d hx hu => have hd := owner (Udp.move_of_step hu); grind
  | close v w hx ho hu => have hd := owner (Udp.move_of_step hu); grind
  | listen v d hx ho1 ho2 hl hu => have hd := owner (Udp.move_of_step hu); grind
  | acceptNone l' v v' w hx hu hu' =>
    have hd := owner (Udp.move_of_step hu)
    have hd' := Udp.Move.owner (Udp.move_of_step hu')
    grind
  | stop l' v w hx ha hu => have hd := owner (Udp.move_of_step hu); grind
  | recv c' r v w hx hr ha hu => have hd := owner (Udp.move_of_step hu); grind
  | recvEnd c' r v v' w w' hx hr ha hu hu' =>
    have hd := owner (Udp.move_of_step hu)
    have hd' := Udp.Move.owner (Udp.move_of_step hu')
    grind
  | drop c' v w hx ha hu => have hd := owner (Udp.move_of_step hu); grind
  | send c' ok b hx hb ha hl => grind
  | sendEnd c' ok b v w hx hb ha hl hu => have hd := owner (Udp.move_of_step hu); grind
  | still k1 k2 k3 k4 k5 k6 k7 => grind

theorem Link.app_listener (h : Link s) (m : Ep.Move true s.ep x o e) (k : Call s x e o s' us out) :
    ∀ l, s'.ep.listener = some l → l < s'.ep.lisCount ∧
      ((s'.ep.liss l).alive = true → s'.udp.listener = some (s'.backlog l)) := by
  intro l hl
  have h1 := h.listener l
  have lis := fun {u w v} (m : Udp.Move s.udp u w v) => @Udp.Move.listener _ _ _ _ m
  rw [k.ep] at hl ⊢
  by_cases hn : e.lisCount = s.ep.lisCount
  · obtain ⟨h3, h4, h5⟩ := sameLis_of_move m hn
    have h5 := h5 l
    cases k with
    | connect c a v d b hx ho hu => have hd := lis (Udp.move_of_step hu); grind
    | accept l' a v d hx hu => have hd := lis (Udp.move_of_step hu); grind
    | close v w hx ho hu => have hd := lis (Udp.move_of_step hu); grind
    | listen v d hx ho1 ho2 hl' hu => exact absurd hn hl'
    | acceptNone l' v v' w hx hu hu' =>
      have hd := lis (Udp.move_of_step hu)
      have hd' := Udp.Move.listener (Udp.move_of_step hu')
      grind
    | stop l' v w hx ha hu => have hd := lis (Udp.move_of_step hu); grind
    | recv c' r v w hx hr ha hu => have hd := lis (Udp.move_of_step hu); grind
    | recvEnd c' r v v' w w' hx hr ha hu hu' =>
      have hd := lis (Udp.move_of_step hu)
      have hd' := Udp.Move.listener (Udp.move_of_step hu')
      grind
    | drop c' v w hx ha hu => have hd := lis (Udp.move_of_step hu); grind
    | send c' ok b hx hb ha hl => grind
    | sendEnd c' ok b v w hx hb ha hl hu => have hd := lis (Udp.move_of_step hu); grind
    | still k1 k2 k3 k4 k5 k6 k7 => grind
  · obtain ⟨hx, ho, h3, h4, h5, h6⟩ := newLis_of_move m hn
    rw [h4] at hl
    cases hl
    cases k with
    | listen v d hx ho1 ho2 hl' hu =>
      cases Udp.move_of_step hu
      exact ⟨by omega, fun _ => by simp [upd_same]⟩
    | still k1 => exact absurd (k1 _ hx).1 hn
    | connect c a v d b hx' ho' hu => rw [ho] at ho'; cases ho'
    | close v w hx ho' hu => rw [ho] at ho'; cases ho'
    | accept _ _ _ _ hx' => rw [hx] at hx'; cases hx'
    | acceptNone _ _ _ _ hx' => rw [hx] at hx'; cases hx'
    | stop _ _ _ hx' => rw [hx] at hx'; cases hx'
    | recv _ _ _ _ hx' => rw [hx] at hx'; cases hx'
    | recvEnd _ _ _ _ _ _ hx' => rw [hx] at hx'; cases hx'
    | drop _ _ _ hx' => rw [hx] at hx'; cases hx'
    | send _ _ _ hx' => rw [hx] at hx'; cases hx'
    | sendEnd _ _ _ _ _ hx' => rw [hx] at hx'; cases hx'

theorem link {tr : Trace} {s : State} (e : Exec step init tr s) : Link s := by
  induction e with
  | nil => exact .init
  | @snoc tr1 s1 s2 act ob e1 hs ih =>
    obtain ⟨e2, e3⟩ := parts e1
    have hg := (Ep.good_hist e2).1
    have t := (Udp.exec_inv e3).1
    cases move_of_step hs with
    | app x e o _ us out he hc =>
      have m := Ep.move_of_step he
      exact ⟨ih.app_chan hg t m hc, ih.app_inj t m hc, ih.app_backlog hg m hc, ih.app_backInj m hc,
        ih.app_owner m hc, ih.app_listener m hc⟩
    | net _ u v w ha hn hd hu => exact ih.net t (Udp.move_of_step hu) hn

end Node

end Rsomeip.Rt
