import Verif.Lemmas.EpCount
import Verif.Props.Rt.Arrive

/-! # C96: how many connections run -/

namespace Rsomeip

open Rt Spec Spec.Ep Spec.Node
open Someip (InterfaceId)

/-- How many connections run, each with its own task and queues. -/
def Spec.Node.running (s : Node.State) : Nat :=
  ((Finset.range s.ep.connCount).filter fun c => (s.ep.conns c).alive = true).card

/-- How many stubs and how many proxies the user has. -/
def Spec.Node.openStubs (s : Node.State) : Nat :=
  ((Finset.range s.ep.stubCount).filter fun k => (s.ep.stubs k).alive = true).card

def Spec.Node.openProxies (s : Node.State) : Nat :=
  ((Finset.range s.ep.proxyCount).filter fun p => (s.ep.proxies p).alive = true).card

/-- **C96**, what holds: when an endpoint on a UDP socket has nothing left to do, every running
connection is used by a proxy, or by the listener or by the table of a stub, of which each has at most
one for every remote there ever was. In particular, nothing runs for messages that were received, for
handles that were dropped, or twice for the same remote and stub. -/
theorem C96_bounded_partial {tr : Spec.Node.Trace} {s : Node.State} (e : Exec Node.step Node.init tr s)
    (hr : Resting s) (hm : Room s) (remotes : Finset Addr)
    (h : ∀ c a, Shown (app tr) (.opened c a) → a ∈ remotes) :
    running s ≤ openProxies s + 2 * openStubs s * remotes.card := by
  have e1 := (Node.parts e).1
  exact Ep.rest_count e1 (quiet e hr hm) remotes fun c hc =>
    h c _ ((Ep.good_hist e1).2.conns c hc)

/-- One stub, one proxy, two remotes, two running connections, and nothing left to do. -/
example : ∃ tr s, Exec Node.step Node.init tr s ∧ Resting s ∧ Room s ∧
    (∀ c a, Shown (app tr) (.opened c a) → a ∈ ({7, 8} : Finset Addr)) ∧
    running s = 2 ∧ openProxies s = 1 ∧ openStubs s = 1 := by
  obtain ⟨tr, s, e, h⟩ := exec_by (step := Node.step) (s := Node.init) Spec.Node.emptied
    (fun tr s => Spec.Node.calm s && (app tr).all (fun x => match x.2 with
        | .opened _ a => a == 7 || a == 8
        | _ => true) && decide (running s = 2 ∧ openProxies s = 1 ∧ openStubs s = 1))
    (by decide +kernel)
  simp only [Bool.and_eq_true, decide_eq_true_eq, List.all_eq_true] at h
  obtain ⟨hr, hm⟩ := calm_rests e h.1.1
  refine ⟨tr, s, e, hr, hm, fun c a ⟨x, hx⟩ => ?_, h.2⟩
  have := h.1.2 _ hx
  simpa using this

/-- An endpoint that serves one interface, and has heard from addresses 0 to `n` - 1. -/
structure Node.Flooded (s : Node.State) (n : Nat) : Prop where
  idle : s.udp.pc = .idle
  owner : s.udp.owner = true
  lis : s.udp.listener = some (s.backlog 0)
  lisLt : s.backlog 0 < s.udp.backlogCount
  backlog : s.udp.backlogs (s.backlog 0) = ⟨8, [], true⟩
  receivers : ∀ a, s.udp.receivers.get a ≠ none → a < n
  ep : s.ep.pc = .idle ∧ s.ep.cmds = [] ∧ s.ep.handles = true
  liss : s.ep.lisCount = 1 ∧ (s.ep.liss 0).alive = true ∧ (s.ep.liss 0).pc = .wait ∧
    (s.ep.liss 0).cmds = []
  stubs : s.ep.stubCount = 1 ∧ (s.ep.stubs 0).alive = true ∧ (s.ep.stubs 0).lis = 0 ∧
    (s.ep.stubs 0).pc = .idle ∧ (s.ep.ifaces (s.ep.stubs 0).iface).queue = []
  proxies : s.ep.proxyCount = 0
  count : s.ep.connCount = n
  conns : ∀ c, c < n → (s.ep.conns c).alive = true ∧ (s.ep.conns c).addr = c ∧
    (s.ep.conns c).pc = .wait ∧
    (s.ep.conns c).out = none ∧ (s.ep.conns c).cmds = [] ∧ (c, c) ∈ (s.ep.liss 0).conns.entries ∧
    (s.udp.chans (s.chan c)).queue = [] ∧ (s.udp.chans (s.chan c)).missed = 0 ∧
    s.chan c < s.udp.chanCount ∧ (c, s.chan c) ∈ s.udp.receivers.entries

/-- What a remote does with an empty datagram. -/
def Spec.Node.knock (n : Nat) : List Node.Action :=
  [.datagram n [], .task, .task, .task, .task, .app (.accept 0 n), .app (.lisShare 0),
    .app (.packet n (.packet [])), .app (.route n)]

theorem upd_twice {α : Type} (f : Nat → α) (i : Nat) (x y : α) : upd (upd f i x) i y = upd f i y := by
  funext j
  simp only [upd]
  split <;> rfl

theorem Node.Flooded.next {s : Node.State} {n : Nat} (h : Node.Flooded s n) :
    ∃ t s', Exec Node.step s t s' ∧ t.map Prod.fst = knock n ∧ Node.Flooded s' (n + 1) := by
  obtain ⟨h1, h2, h3, h4, h5, h6, ⟨h7, h8, h9⟩, ⟨h10, h11, h12, h13⟩, ⟨h14, h15, h16, h17, h18⟩, h19, h20,
    h21⟩ := h
  have hr : receive (.packet []) = .route [] := (receive_route _ _).mpr .nil
  have hn : s.udp.receivers.get n = none := by
    cases hg : s.udp.receivers.get n with
    | none => rfl
    | some c => exact absurd (h6 n (by simp [hg])) (Nat.lt_irrefl n)
  have hp : ∃ r, perform Node.step s (knock n) = some r ∧ r.1.map Prod.fst = knock n ∧
      Node.Flooded r.2 (n + 1) := by
    simp [knock, perform, Node.step, Udp.step, Udp.task, h1, hn, Udp.admit, h3, h5, Ep.step, h11, h12,
      upd_same, upd_twice, Node.appCall, Node.acceptCall, Udp.accept, h4, Ep.lisShare,
      Ep.State.peerLocked, h14, h17,
      Node.still, Ep.packet, h20, Ep.newConn, hr, Node.recvCall, Udp.recv, Udp.Chan.push, Node.received,
      Node.release, Ep.route]
    constructor
    · rfl
    · exact h2
    · rfl
    · exact h4
    · exact upd_same ..
    · intro a
      dsimp only
      rw [Map.get_insert]
      split
      · rename_i ha
        exact fun _ => ha ▸ Nat.lt_succ_self _
      · exact fun ha => Nat.lt_succ_of_lt (h6 a ha)
    · exact ⟨h7, h8, h9⟩
    · simp [upd_same, h10, h13]
    · exact ⟨rfl, h15, h16, h17, h18⟩
    · exact h19
    · rfl
    · intro c hc
      by_cases hcn : c = n
      · subst hcn
        simp [upd_same, Map.mem_insert]
      · obtain ⟨k1, k2, k3, k4, k5, k6, k7, k8, k9, k10⟩ := h21 c (by omega)
        have hne : s.chan c ≠ s.udp.chanCount := by omega
        simp only [upd_same, Map.mem_insert, upd_ne _ _ hcn, upd_ne _ _ hne]
        exact ⟨k1, k2, k3, k4, k5, .inr ⟨k6, hcn⟩, k7, k8, by omega, .inr ⟨k10, hcn⟩⟩
  obtain ⟨⟨t, s'⟩, hp1, hp2, hp3⟩ := hp
  exact ⟨t, s', exec_of_perform hp1, hp2, hp3⟩

theorem Node.Flooded.rests {s : Node.State} {n : Nat} {tr : Spec.Node.Trace} (h : Node.Flooded s n)
    (e : Exec Node.step Node.init tr s) :
    Resting s ∧ Room s ∧ openStubs s = 1 ∧ openProxies s = 0 ∧ running s = n := by
  have hg := (Ep.good_hist (Node.parts e).1).1
  obtain ⟨h1, h2, h3, h4, h5, h6, ⟨h7, h8, h9⟩, ⟨h10, h11, h12, h13⟩, ⟨h14, h15, h16, h17, h18⟩, h19, h20,
    h21⟩ := h
  refine ⟨(resting_iff s).mpr (Node.Idle.rests ⟨.inl h1, .inr ⟨h7, h8, ?_⟩, fun c hc => ?_, fun l hl => ?_,
    fun k hk => ?_⟩ hg), ⟨fun k hk => ?_, fun p hp => ?_⟩, ?_, ?_, ?_⟩
  · simp [Ep.State.epStrong, h9]
  · rw [h20] at hc
    obtain ⟨k1, k2, k3, k4, k5, k6, k7, k8, k9, k10⟩ := h21 c hc
    refine ⟨k3, k4, fun _ => ⟨k5, ?_, k7, k8, ?_⟩⟩
    · exact (Ep.connStrong_iff hg.fresh c).mpr (.inr (.inl ⟨0, (Ep.Lis.holdsConn_iff ..).mpr
        (.inl ⟨c, k6⟩)⟩))
    · simp only [Udp.State.hasSender, Udp.State.shared, h2, Bool.true_or, Bool.true_and,
        Bool.or_eq_true, List.any_eq_true, decide_eq_true_eq]
      exact .inl ⟨_, k10, rfl⟩
  · have : l = 0 := by omega
    subst this
    refine ⟨h12, fun _ => ⟨h13, ?_, by rw [h5], h3, by simp [Udp.State.shared, h2]⟩⟩
    exact (Ep.lisStrong_iff hg.fresh 0).mpr (.inr ⟨0, h15, h16⟩)
  · have : k = 0 := by omega
    subst this
    exact h17
  · have := Ep.stub_lt hg.fresh hk
    have : k = 0 := by omega
    subst this
    rw [h18]
    decide
  · have := Ep.proxy_lt hg.fresh hp
    omega
  · simp [openStubs, h14, h15, Finset.range_one, Finset.filter_singleton]
  · simp [openProxies, h19]
  · rw [running, h20, Finset.filter_true_of_mem, Finset.card_range]
    exact fun c hc => (h21 c (Finset.mem_range.mp hc)).1

/-- **C96 fails.** An endpoint on a UDP socket that serves one interface keeps a running connection for
every address it has ever heard from: for every `n`, after one call of `serve` and empty datagrams,
nothing is left to do, the user has one stub, and `n` connections are running. -/
theorem C96_false (n : Nat) : ∃ o u s,
    Exec Node.step Node.init ((.app (.serve ⟨1, 1⟩), o) :: u) s ∧
    (∀ x ∈ u, Silent [x] ∨ ∃ a, x.1 = .datagram a []) ∧ Resting s ∧ Room s ∧
    openStubs s = 1 ∧ openProxies s = 0 ∧ running s = n := by
  suffices h : ∃ o u s, Exec Node.step Node.init ((.app (.serve ⟨1, 1⟩), o) :: u) s ∧
      (∀ x ∈ u, Silent [x] ∨ ∃ a, x.1 = .datagram a []) ∧ Node.Flooded s n by
    obtain ⟨o, u, s, e, h1, h2⟩ := h
    exact ⟨o, u, s, e, h1, h2.rests e⟩
  induction n with
  | zero =>
    obtain ⟨o, e, h⟩ : ∃ o : Node.Obs × List (Node.Action × Node.Obs) × Node.State,
        Exec Node.step Node.init ((.app (.serve ⟨1, 1⟩), o.1) :: o.2.1) o.2.2 ∧
        o.2.1.map Prod.fst = [.app (.ep true), .app (.ep true), .app (.ep true), .app (.ep true),
          .app (.ep true), .app (.lisCmd 0)] ∧ Node.Flooded o.2.2 0 := by
      refine ⟨⟨_, _, _⟩, exec_of_perform (as := [.app (.serve ⟨1, 1⟩), .app (.ep true), .app (.ep true),
        .app (.ep true), .app (.ep true), .app (.ep true), .app (.lisCmd 0)]) rfl, rfl, ?_⟩
      constructor <;> first
        | exact fun c hc => absurd hc (Nat.not_lt_zero c)
        | exact fun a ha => absurd rfl ha
        | decide +kernel
        | rfl
    refine ⟨_, _, _, e, fun x hx => .inl ?_, h.2⟩
    have : x.1 ∈ _ := List.mem_map_of_mem hx
    rw [h.1] at this
    simp only [List.mem_cons, List.not_mem_nil, or_false] at this
    obtain ⟨a, w⟩ := x
    dsimp only at this
    rcases this with rfl | rfl | rfl | rfl | rfl | rfl <;> exact silent_of_internal _ rfl
  | succ n ih =>
    obtain ⟨o, u, s, e, h1, h2⟩ := ih
    obtain ⟨t, s', e', h3, h4⟩ := h2.next
    refine ⟨o, u ++ t, s', e.append e', fun x hx => ?_, h4⟩
    rcases List.mem_append.mp hx with hx | hx
    · exact h1 x hx
    · have : x.1 ∈ knock n := h3 ▸ List.mem_map_of_mem hx
      simp only [knock, List.mem_cons, List.not_mem_nil, or_false] at this
      obtain ⟨a, w⟩ := x
      dsimp only at this
      rcases this with rfl | rfl | rfl | rfl | rfl | rfl | rfl | rfl | rfl
      · exact .inr ⟨_, rfl⟩
      all_goals exact .inl (silent_of_internal _ rfl)

end Rsomeip
