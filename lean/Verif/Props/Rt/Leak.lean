import Verif.Lemmas.EpSeen
import Verif.Props.Rt.TcpDone

/-! # C101: what has ended is forgotten -/

namespace Rsomeip

open Rt Rt.Ep Spec Spec.Ep
open Someip (InterfaceId)

section
variable {dg : Bool} {tr t : Spec.Ep.Trace} {s s' : Ep.State}

theorem size_le {κ : Type} [DecidableEq κ] {m : Map κ Nat} {P : κ → Prop} (ht : m.Tidy)
    (h : ∀ a, m.get a ≠ none → P a) : AtMost (size m) P := by
  intro F hF
  have h1 : size m = (m.entries.map Prod.fst).toFinset.card := by
    rw [List.toFinset_card_of_nodup ht, List.length_map, size]
  rw [h1]
  refine Finset.card_le_card fun a ha => hF a (h a ?_)
  obtain ⟨⟨b, c⟩, hb, rfl⟩ := List.mem_map.mp (List.mem_toFinset.mp ha)
  exact Map.get_of_mem hb

/-- **C101**, what holds of the size of the tables: what an endpoint keeps grows with the number of
different remotes and interfaces it has had to do with, not with the number of connections, messages or
calls. A listener has an entry for each address it has accepted connections from, a stub one for each
address it was asked to send to; the endpoint's tables have one for each of these addresses, and one for
each interface there was a call for. -/
theorem C101_bounded_partial (e : Exec (Ep.step dg) Ep.init tr s) :
    (∀ l, AtMost (size (s.liss l).conns) (Came tr l)) ∧
      (∀ k, AtMost (size (s.stubs k).conns) (Went tr k)) ∧
      AtMost (size s.peers) (fun a => (∃ l, Came tr l a) ∨ ∃ k, Went tr k a) ∧
      AtMost (size s.shared) (Wanted tr) ∧
      (∀ l, AtMost (size (s.liss l).owned) (Wanted tr)) ∧
      ∀ c, AtMost (size (s.conns c).owned) (Wanted tr) := by
  have hn := Ep.neat e
  have hs := Ep.seen e
  exact ⟨fun l => size_le (hn.lisConns l) (hs.lis l), fun k => size_le (hn.stubs k) (hs.stub k),
    size_le hn.peers hs.peers, size_le hn.shared hs.shared,
    fun l => size_le (hn.lisOwned l) (hs.lisOwned l), fun c => size_le (hn.conns c) (hs.connOwned c)⟩

/-- **C101**, what holds of what has ended: a listener, a stub or a connection that has ended keeps
nothing. -/
theorem C101_emptied_partial (e : Exec (Ep.step dg) Ep.init tr s) :
    (∀ l, (s.liss l).alive = false → size (s.liss l).conns = 0 ∧ size (s.liss l).owned = 0 ∧
      (s.liss l).cmds = []) ∧
    (∀ k, (s.stubs k).alive = false → size (s.stubs k).conns = 0) ∧
    ∀ c, (s.conns c).alive = false → size (s.conns c).owned = 0 ∧ (s.conns c).cmds = [] ∧
      (s.conns c).out = none := by
  have h := (Ep.good_hist e).1.ended
  refine ⟨fun l hl => ?_, fun k hk => ?_, fun c hc => ?_⟩
  · obtain ⟨h1, h2, h3, -⟩ := h.liss l hl
    rw [h2, h3]
    exact ⟨rfl, rfl, h1⟩
  · rw [(h.stubs k hk).1]
    rfl
  · obtain ⟨h1, h2, h3, -⟩ := h.conns c hc
    rw [h3]
    exact ⟨rfl, h1, h2⟩

/-- What keeps the entry of a listener. -/
structure Ep.Stays (l : Nat) (a : Addr) (c : Nat) (s : Ep.State) : Prop where
  lt : l < s.lisCount
  pc : ∀ d, (s.liss l).pc = .share d → d < s.connCount ∧ (s.conns d).addr ≠ a
  get : (s.liss l).alive = true → (s.liss l).conns.get a = some c

theorem Ep.Stays.next {l c : Nat} {a : Addr} {x : Ep.Action} {o : Ep.Obs} (h : Ep.Stays l a c s)
    (he : Ended s) (m : Ep.Move dg s x o s') (hx : ∀ d, (x, o) ≠ (.accept l a, .opened d a)) :
    Ep.Stays l a c s' := by
  obtain ⟨h1, h2, h3⟩ := h
  have h4 := he.liss l
  constructor
  · cases m <;> first | exact h1 | (dsimp only; omega)
  · cases m <;> first | exact h2 | grind [upd, newLis, deadLis, newConn, Conn.ended]
  · cases m <;> first | exact h3 | grind [upd, newLis, deadLis, Map.get_insert]

/-- **C101 fails.** The handle of an accepted connection stays in the table of the listener, whether the
connection has ended or not, for as long as the listener runs, until a connection from the same address
is accepted. -/
theorem C101_keeps (e : Exec (Ep.step dg) Ep.init tr s) (e' : Exec (Ep.step dg) s t s') {l c : Nat}
    {a : Addr} (hk : (s.liss l).conns.get a = some c)
    (hp : ∀ d, (s.liss l).pc = .share d → (s.conns d).addr ≠ a)
    (hn : ∀ d, (.accept l a, .opened d a) ∉ t) (hl : (s'.liss l).alive = true) :
    (s'.liss l).conns.get a = some c := by
  suffices h : Ep.Stays l a c s' from h.get hl
  have hg := (Ep.good_hist e).1
  have h0 : (s.liss l).alive = true := by
    cases ha : (s.liss l).alive with
    | true => rfl
    | false =>
      rw [(hg.ended.liss l ha).2.2.1] at hk
      cases hk
  clear hl
  induction e' with
  | nil => exact ⟨Ep.lis_lt hg.fresh h0, fun d hd => ⟨((Ep.seen e).lisPc l d hd).1, hp d hd⟩, fun _ => hk⟩
  | snoc e' hs ih =>
    refine (ih fun d hd => hn d (List.mem_append_left _ hd)).next (Ep.good_hist (e.append e')).1.ended
      (Ep.move_of_step hs) fun d hd => hn d ?_
    rw [hd]
    exact List.mem_append_right _ (List.mem_singleton.mpr rfl)

/-- What keeps an entry of the shared table of connections. -/
structure Ep.StaysShared (a : Addr) (c : Nat) (s : Ep.State) : Prop where
  lis : ∀ l d, (s.liss l).pc = .share d → d < s.connCount ∧ (s.conns d).addr ≠ a
  stub : ∀ k, (s.stubs k).pc.to ≠ some a
  get : s.peers.get a = some c

theorem Ep.StaysShared.next {c : Nat} {a : Addr} {x : Ep.Action} {o : Ep.Obs}
    (h : Ep.StaysShared a c s) (m : Ep.Move dg s x o s')
    (hx : ∀ l d, (x, o) ≠ (.accept l a, .opened d a)) (hy : ∀ k m, (x, o) ≠ (.stubSend k a m, .none)) :
    Ep.StaysShared a c s' := by
  obtain ⟨h1, h2, h3⟩ := h
  have h5 := answer_cases s
  have h6 := refuse_cases s
  constructor
  · cases m <;> first | exact h1 | grind [upd, newLis, deadLis, newConn, Conn.ended]
  · cases m <;> first | exact h2 | grind [upd, stubAt_apply, StubPc.to]
  · cases m <;> first | exact h3 | grind [StubPc.to, Map.get_insert, Map.get_remove]

/-- **C101 fails** for the endpoint as a whole, too: the entry of a connection in the shared table stays,
whatever has ended, even if nothing is left of the endpoint but the table, until a connection from the
same address is accepted or something is sent there. -/
theorem C101_keeps_shared (e : Exec (Ep.step dg) Ep.init tr s) (e' : Exec (Ep.step dg) s t s') {c : Nat}
    {a : Addr} (hk : s.peers.get a = some c)
    (hp : ∀ l d, (s.liss l).pc = .share d → (s.conns d).addr ≠ a) (hq : ∀ k, (s.stubs k).pc.to ≠ some a)
    (hn : ∀ l, ¬ Came t l a) (hm : ∀ k, ¬ Went t k a) : s'.peers.get a = some c := by
  suffices h : Ep.StaysShared a c s' from h.get
  induction e' with
  | nil => exact ⟨fun l d hd => ⟨((Ep.seen e).lisPc l d hd).1, hp l d hd⟩, hq, hk⟩
  | snoc e' hs ih =>
    refine (ih (fun l h => hn l (h.grow _)) fun k h => hm k (h.grow _)).next
      (Ep.move_of_step hs) (fun l d hd => hn l ⟨d, ?_⟩) fun k m hd => hm k ⟨m, ?_⟩ <;>
    · rw [hd]
      exact List.mem_append_right _ (List.mem_singleton.mpr rfl)

/-- What keeps an entry of the table of interfaces. -/
structure Ep.StaysKnown (id : InterfaceId) (i : Nat) (s : Ep.State) : Prop where
  serve : .serve id ∉ s.cmds
  proxy : ∀ a, .proxy id a ∉ s.cmds
  pc : s.pc.makes ≠ some id
  get : s.shared.get id = some i

theorem Ep.StaysKnown.next {id : InterfaceId} {i : Nat} {x : Ep.Action} {o : Ep.Obs}
    (h : Ep.StaysKnown id i s) (m : Ep.Move dg s x o s') (hx : x ≠ .serve id)
    (hy : ∀ a, x ≠ .proxy id a) (ho : ∀ m w, o = .dropped m w → InterfaceId.of m ≠ id) :
    Ep.StaysKnown id i s' := by
  obtain ⟨h1, h2, h3, h4⟩ := h
  constructor
  · cases m <;> first | exact h1 | grind
  · cases m <;> first | exact h2 | grind
  · cases m <;> first | exact h3 | grind [EpPc.makes]
  · cases m <;> first | exact h4 | grind [EpPc.makes, Map.get_insert, Map.get_remove]

/-- **C101 fails** for interfaces, too: the entry of an interface stays, also after its stub or proxy was
dropped, until the user asks for the interface again, or a message for it arrives and is dropped. -/
theorem C101_keeps_interface (e' : Exec (Ep.step dg) s t s') {id : InterfaceId} {i : Nat}
    (hk : s.shared.get id = some i) (hp : s.pc.makes ≠ some id) (hs : .serve id ∉ s.cmds)
    (hq : ∀ a, .proxy id a ∉ s.cmds) (h1 : ∀ o, (.serve id, o) ∉ t) (h2 : ∀ a o, (.proxy id a, o) ∉ t)
    (h3 : ∀ m w, Shown t (.dropped m w) → InterfaceId.of m ≠ id) : s'.shared.get id = some i := by
  suffices h : Ep.StaysKnown id i s' from h.get
  induction e' with
  | nil => exact ⟨hs, hq, hp, hk⟩
  | @snoc t s₁ s₂ x o e' hs ih =>
    have hl : ∀ y, y = (x, o) → y ∈ t ++ [(x, o)] := fun y hy => by simp [hy]
    refine (ih (fun o h => h1 o (List.mem_append_left _ h))
      (fun a o h => h2 a o (List.mem_append_left _ h))
      fun m w h => h3 m w (h.imp fun _ h => List.mem_append_left _ h)).next (Ep.move_of_step hs) ?_ ?_ ?_
    · rintro rfl
      exact h1 o (hl _ rfl)
    · rintro a rfl
      exact h2 a o (hl _ rfl)
    · rintro m w rfl
      exact h3 m w ⟨x, hl _ rfl⟩

end

/-- Two clients connect, then the first one again, then one of them is disconnected. -/
def Spec.Ep.visits : List Ep.Action :=
  [.serve ⟨1, 1⟩, .ep true, .ep true, .ep true, .ep true, .ep true, .lisCmd 0, .accept 0 7, .lisShare 0,
    .accept 0 8, .lisShare 0, .accept 0 7, .lisShare 0, .packet 1 .closed]

/-- Three connections, two entries; the listener came across two addresses. The connection of address 8
has ended, and its handle is still there. -/
example : ∃ tr s, Exec (Ep.step false) Ep.init tr s ∧ s.connCount = 3 ∧ size (s.liss 0).conns = 2 ∧
    size s.peers = 2 ∧ Came tr 0 7 ∧ Came tr 0 8 ∧ (s.liss 0).alive = true ∧
    (s.liss 0).conns.get 8 = some 1 ∧ s.peers.get 8 = some 1 ∧ (s.conns 1).alive = false ∧
    (s.liss 0).pc = .wait ∧ (∀ k, (s.stubs k).pc.to ≠ some 8) := by
  obtain ⟨tr, s, e, h⟩ := exec_by (step := Ep.step false) (s := Ep.init) Spec.Ep.visits
    (fun tr s => decide (s.connCount = 3 ∧ size (s.liss 0).conns = 2 ∧
      size s.peers = 2 ∧ (.accept 0 7, .opened 0 7) ∈ tr ∧ (.accept 0 8, .opened 1 8) ∈ tr ∧
      (s.liss 0).alive = true ∧
      (s.liss 0).conns.get 8 = some 1 ∧ s.peers.get 8 = some 1 ∧ (s.conns 1).alive = false ∧
      (s.liss 0).pc = .wait ∧ s.stubCount = 1 ∧ (s.stubs 0).pc = .idle))
    (by decide +kernel)
  obtain ⟨h1, h2, h3, h4, h5, h6, h7, h8, h9, h10, h11, h12⟩ := of_decide_eq_true h
  refine ⟨tr, s, e, h1, h2, h3, ⟨_, h4⟩, ⟨_, h5⟩, h6, h7, h8, h9, h10, fun k => ?_⟩
  have hf := (Ep.good_hist e).1.fresh
  rcases Nat.lt_or_ge k 1 with hk | hk
  · rw [show k = 0 by omega, h12]
    nofun
  · rw [hf.stubs k (by omega)]
    nofun

/-- After the stub was dropped and the listener has ended, nothing is left in its table. -/
example : ∃ tr s, Exec (Ep.step false) Ep.init tr s ∧ s.lisCount = 1 ∧ (s.liss 0).alive = false ∧
    Came tr 0 7 ∧ size s.peers = 2 := by
  obtain ⟨tr, s, e, h⟩ := exec_by (step := Ep.step false) (s := Ep.init)
    (Spec.Ep.visits ++ [.dropStub 0, .lisCmd 0])
    (fun tr s => decide (s.lisCount = 1 ∧ (s.liss 0).alive = false ∧
      (.accept 0 7, .opened 0 7) ∈ tr ∧ size s.peers = 2)) (by decide +kernel)
  obtain ⟨h1, h2, h3, h4⟩ := of_decide_eq_true h
  exact ⟨tr, s, e, h1, h2, ⟨_, h3⟩, h4⟩

/-- A stub was dropped and its listener has ended; the entry of its interface is still there. -/
example : ∃ tr s, Exec (Ep.step false) Ep.init tr s ∧ (s.stubs 0).alive = false ∧
    s.shared.get ⟨1, 1⟩ = some 0 ∧ s.pc.makes ≠ some ⟨1, 1⟩ ∧ s.cmds = [] := by
  obtain ⟨tr, s, e, h⟩ := exec_by (step := Ep.step false) (s := Ep.init)
    (Spec.Ep.visits ++ [.dropStub 0, .lisCmd 0])
    (fun _ s => decide ((s.stubs 0).alive = false ∧
      s.shared.get ⟨1, 1⟩ = some 0 ∧ s.pc.makes ≠ some ⟨1, 1⟩ ∧ s.cmds = [])) (by decide +kernel)
  exact ⟨tr, s, e, of_decide_eq_true h⟩

/-- An endpoint that serves one interface, and has had connections from addresses 0 to `n` - 1. -/
structure TcpNode.Littered (s : TcpNode.State) (n : Nat) : Prop where
  ep : s.ep.pc = .idle ∧ s.ep.cmds = [] ∧ s.ep.handles = true
  liss : s.ep.lisCount = 1 ∧ (s.ep.liss 0).alive = true ∧ (s.ep.liss 0).pc = .wait ∧
    (s.ep.liss 0).cmds = []
  stubs : s.ep.stubCount = 1 ∧ (s.ep.stubs 0).alive = true ∧ (s.ep.stubs 0).lis = 0 ∧
    (s.ep.stubs 0).pc = .idle ∧ (s.ep.ifaces (s.ep.stubs 0).iface).queue = []
  proxies : s.ep.proxyCount = 0
  count : s.ep.connCount = n
  conns : ∀ c, c < n → (s.ep.conns c).alive = false
  tables : ∀ a, a < n → (s.ep.liss 0).conns.get a = some a ∧ s.ep.peers.get a = some a

/-- A client connects, and its connection breaks. -/
def Spec.TcpNode.visit (n : Nat) : List TcpNode.Action :=
  [.app (.accept 0 n), .app (.lisShare 0), .read n .failed]

theorem TcpNode.Littered.next {s : TcpNode.State} {n : Nat} (h : TcpNode.Littered s n) :
    ∃ t s', Exec TcpNode.step s t s' ∧ t.map Prod.fst = Spec.TcpNode.visit n ∧
      TcpNode.Littered s' (n + 1) := by
  obtain ⟨⟨h7, h8, h9⟩, ⟨h10, h11, h12, h13⟩, ⟨h14, h15, h16, h17, h18⟩, h19, h20, h21, h22⟩ := h
  have hp : ∃ r, perform TcpNode.step s (Spec.TcpNode.visit n) = some r ∧
      r.1.map Prod.fst = Spec.TcpNode.visit n ∧ TcpNode.Littered r.2 (n + 1) := by
    have hr : receive .closed = .stop := rfl
    simp [Spec.TcpNode.visit, perform, TcpNode.step, TcpNode.does, Ep.step, h11, h12, upd_same,
      Ep.lisShare, Ep.State.peerLocked, h14, h17, h20, Ep.newConn, TcpNode.read, TcpNode.possible,
      Tcp.recv, Ep.packet, hr]
    constructor
    · exact ⟨h7, h8, h9⟩
    · simp [upd_same, h10, h13]
    · exact ⟨rfl, h15, h16, h17, h18⟩
    · exact h19
    · rfl
    · intro c hc
      by_cases hcn : c = n
      · subst hcn
        simp [upd_same, Ep.Conn.ended]
      · simp only [upd_ne _ _ hcn]
        exact h21 c (by omega)
    · intro a ha
      simp only [upd_same, Map.get_insert]
      by_cases hcn : a = n
      · subst hcn
        simp
      · simpa [Ne.symm hcn, hcn] using h22 a (by omega)
  obtain ⟨⟨t, s'⟩, hp1, hp2, hp3⟩ := hp
  exact ⟨t, s', exec_of_perform hp1, hp2, hp3⟩

theorem TcpNode.Littered.rests {s : TcpNode.State} {n : Nat} {tr : Spec.TcpNode.Trace}
    (h : TcpNode.Littered s n) (e : Exec TcpNode.step TcpNode.init tr s) :
    Spec.TcpNode.Resting s ∧ Spec.TcpNode.Room s ∧ (∀ k, (s.ep.stubs k).alive = true ↔ k = 0) ∧
      (∀ p, (s.ep.proxies p).alive = false) ∧ (∀ c, (s.ep.conns c).alive = false) ∧
      (s.ep.liss 0).alive = true := by
  have hg := (Ep.good_hist (TcpNode.part e)).1
  obtain ⟨⟨h7, h8, h9⟩, ⟨h10, h11, h12, h13⟩, ⟨h14, h15, h16, h17, h18⟩, h19, h20, h21, h22⟩ := h
  have hc : ∀ c, (s.ep.conns c).alive = false := by
    intro c
    rcases Nat.lt_or_ge c n with hc | hc
    · exact h21 c hc
    · cases ha : (s.ep.conns c).alive with
      | false => rfl
      | true => exact absurd (Ep.alive_lt hg.fresh ha) (by omega)
  have hk : ∀ k, (s.ep.stubs k).alive = true → k = 0 := by
    intro k hk
    have := Ep.stub_lt hg.fresh hk
    omega
  have hp : ∀ p, (s.ep.proxies p).alive = false := by
    intro p
    cases ha : (s.ep.proxies p).alive with
    | false => rfl
    | true => exact absurd (Ep.proxy_lt hg.fresh ha) (by omega)
  have hl : ∀ l, l ≠ 0 → (s.ep.liss l).alive = false := by
    intro l h0
    cases ha : (s.ep.liss l).alive with
    | false => rfl
    | true => exact absurd (Ep.lis_lt hg.fresh ha) (by omega)
  have hs : s.ep.lisStrong 0 = true := (Ep.lisStrong_iff hg.fresh 0).mpr (.inr ⟨0, h15, h16⟩)
  refine ⟨?_, ⟨fun k hk' => ?_, fun p hp' => ?_⟩, fun k => ⟨hk k, fun h => h ▸ h15⟩, hp, hc, h11⟩
  · rintro _ (⟨y, rfl, hy⟩ | ⟨c, m, rfl⟩ | ⟨c, m, hm, rfl⟩)
    · rcases hy with ⟨ok, rfl⟩ | ⟨l, rfl⟩ | ⟨l, rfl⟩ | ⟨c, rfl⟩ | ⟨c, rfl⟩ | ⟨k, rfl⟩
      · simp [TcpNode.step, TcpNode.does, Ep.step, Ep.ep, h7, Ep.epCmd, h8, Ep.State.epStrong, h9]
      · have : (s.ep.liss l).pc = .wait := by
          by_cases h0 : l = 0
          · rw [h0, h12]
          · exact (hg.ended.liss l (hl l h0)).2.2.2
        simp [TcpNode.step, TcpNode.does, Ep.step, Ep.lisShare, this]
      · by_cases h0 : l = 0
        · subst h0
          simp [TcpNode.step, TcpNode.does, Ep.step, Ep.lisCmd, h11, h13, hs]
        · simp [TcpNode.step, TcpNode.does, Ep.step, Ep.lisCmd, hl l h0]
      · simp [TcpNode.step, TcpNode.does, Ep.step, Ep.route, (hg.ended.conns c (hc c)).2.2.2]
      · simp [TcpNode.step, TcpNode.does, Ep.step, Ep.connCmd, hc c]
      · have : (s.ep.stubs k).pc = .idle := by
          by_cases h0 : k = 0
          · rw [h0, h17]
          · refine (hg.ended.stubs k ?_).2
            cases ha : (s.ep.stubs k).alive with
            | false => rfl
            | true => exact absurd (hk k ha) h0
        simp [TcpNode.step, TcpNode.does, Ep.step, Ep.stubStep, this]
    · simp [TcpNode.step, TcpNode.read, hc c]
    · simp [TcpNode.step, TcpNode.write, (hg.ended.conns c (hc c)).2.1]
  · rw [hk k hk', h18]
    decide
  · rw [hp p] at hp'
    cases hp'

/-- **C101 fails**: a server on a TCP socket grows for every client that connects from an address of its
own, as clients do, and is disconnected. For every `n`, after one call of `serve`, nothing is left to do,
the user has one stub, no connection is running, and the server keeps the handles of `n` ended
connections in both tables. -/
theorem C101_false (n : Nat) : ∃ o u s,
    Exec TcpNode.step TcpNode.init ((.app (.serve ⟨1, 1⟩), o) :: u) s ∧
    (∀ x ∈ u, Spec.TcpNode.GetsOn x.1 ∨ (∃ a, x.1 = .app (.accept 0 a)) ∨ ∃ c, x.1 = .read c .failed) ∧
    Spec.TcpNode.Resting s ∧ Spec.TcpNode.Room s ∧ (∀ k, (s.ep.stubs k).alive = true ↔ k = 0) ∧
    (∀ p, (s.ep.proxies p).alive = false) ∧ (∀ c, (s.ep.conns c).alive = false) ∧
    (s.ep.liss 0).alive = true ∧
    ∀ a, a < n → (s.ep.liss 0).conns.get a = some a ∧ s.ep.peers.get a = some a := by
  suffices h : ∃ o u s, Exec TcpNode.step TcpNode.init ((.app (.serve ⟨1, 1⟩), o) :: u) s ∧
      (∀ x ∈ u, Spec.TcpNode.GetsOn x.1 ∨ (∃ a, x.1 = .app (.accept 0 a)) ∨
        ∃ c, x.1 = .read c .failed) ∧ TcpNode.Littered s n by
    obtain ⟨o, u, s, e, h1, h2⟩ := h
    obtain ⟨k1, k2, k3, k4, k5, k6⟩ := h2.rests e
    exact ⟨o, u, s, e, h1, k1, k2, k3, k4, k5, k6, h2.tables⟩
  induction n with
  | zero =>
    obtain ⟨o, e, h⟩ : ∃ o : TcpNode.Obs × List (TcpNode.Action × TcpNode.Obs) × TcpNode.State,
        Exec TcpNode.step TcpNode.init ((.app (.serve ⟨1, 1⟩), o.1) :: o.2.1) o.2.2 ∧
        o.2.1.map Prod.fst = [.app (.ep true), .app (.ep true), .app (.ep true), .app (.ep true),
          .app (.ep true), .app (.lisCmd 0)] ∧ TcpNode.Littered o.2.2 0 := by
      refine ⟨⟨_, _, _⟩, exec_of_perform (as := [.app (.serve ⟨1, 1⟩), .app (.ep true), .app (.ep true),
        .app (.ep true), .app (.ep true), .app (.ep true), .app (.lisCmd 0)]) rfl, rfl, ?_⟩
      constructor <;> first
        | exact fun c hc => absurd hc (Nat.not_lt_zero c)
        | decide +kernel
    refine ⟨_, _, _, e, fun x hx => .inl ?_, h.2⟩
    have : x.1 ∈ _ := List.mem_map_of_mem hx
    rw [h.1] at this
    simp only [List.mem_cons, List.not_mem_nil, or_false] at this
    obtain ⟨a, w⟩ := x
    dsimp only at this
    rcases this with rfl | rfl | rfl | rfl | rfl | rfl <;> exact .inl ⟨_, rfl, by simp⟩
  | succ n ih =>
    obtain ⟨o, u, s, e, h1, h2⟩ := ih
    obtain ⟨t, s', e', h3, h4⟩ := h2.next
    refine ⟨o, u ++ t, s', e.append e', fun x hx => ?_, h4⟩
    rcases List.mem_append.mp hx with hx | hx
    · exact h1 x hx
    · have : x.1 ∈ Spec.TcpNode.visit n := h3 ▸ List.mem_map_of_mem hx
      simp only [Spec.TcpNode.visit, List.mem_cons, List.not_mem_nil, or_false] at this
      rcases this with h | h | h <;> rw [h]
      · exact .inr (.inl ⟨_, rfl⟩)
      · exact .inl (.inl ⟨_, rfl, by simp⟩)
      · exact .inr (.inr ⟨_, rfl⟩)

end Rsomeip
