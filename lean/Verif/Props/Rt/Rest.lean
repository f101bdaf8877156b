import Verif.Lemmas.NodeRest
import Verif.Props.Rt.TcpNode
import Verif.Props.Rt.Node

/-! # C88: an endpoint on a socket comes to rest -/

namespace Rsomeip

open Rt Spec

/-! ### UDP -/

/-- Nobody calls, and nothing comes from the network: only the tasks of the endpoint and of the socket
and the calls in progress do something. -/
def Spec.Node.Silent (t : Spec.Node.Trace) : Prop :=
  ∀ x ∈ t, x.1 = .task ∨ ∃ y, x.1 = .app y ∧
    ((∃ ok, y = .ep ok) ∨ (∃ l a, y = .accept l a) ∨ (∃ l, y = .acceptNone l) ∨
      (∃ l, y = .lisShare l) ∨ (∃ l, y = .lisCmd l) ∨ (∃ c r, y = .packet c r) ∨
      (∃ c, y = .route c) ∨ (∃ c, y = .connCmd c) ∨ (∃ c ok, y = .sent c ok) ∨
      ∃ k, y = .stubStep k)

/-- **C88.** On a UDP socket, without calls and without datagrams, everything comes to rest: the number
of steps is bounded, whatever the schedule, even with packets, connections, requests and messages
still waiting. -/
theorem C88_udp {tr : Spec.Node.Trace} {s : Node.State} (e : Exec Node.step Node.init tr s) :
    ∃ n, ∀ t s', Exec Node.step s t s' → Node.Silent t → t.length ≤ n := by
  refine ⟨s.work, fun t s' e' h => Nat.le_trans (Nat.le_add_right _ _)
    (Node.work_bound e e' ?_)⟩
  rintro ⟨a, o⟩ hx
  rcases h _ hx with h | ⟨y, h, hy⟩
  · dsimp only at h; subst h; rfl
  · dsimp only at h; subst h
    rcases hy with ⟨_, rfl⟩ | ⟨_, _, rfl⟩ | ⟨_, rfl⟩ | ⟨_, rfl⟩ | ⟨_, rfl⟩ | ⟨_, _, rfl⟩ | ⟨_, rfl⟩ |
      ⟨_, rfl⟩ | ⟨_, _, rfl⟩ | ⟨_, rfl⟩ <;> rfl

/-- After a datagram of a new peer, a served interface has something to do. -/
example : ∃ tr s t s', Exec Node.step Node.init tr s ∧ Exec Node.step s t s' ∧ Node.Silent t ∧
    t.length = 9 := by
  obtain ⟨tr, s, e, h⟩ := exec_by (step := Node.step) (s := Node.init)
    [.app (.serve ⟨1, 1⟩), .app (.ep true), .app (.ep true), .app (.ep true), .app (.ep true),
      .app (.ep true), .app (.lisCmd 0), .datagram 8 (frame Ep.msgA)]
    (fun _ s => (perform Node.step s [.task, .task, .task, .task, .app (.accept 0 8),
      .app (.lisShare 0), .app (.packet 0 (.packet (frame Ep.msgA))), .app (.route 0),
      .app (.route 0)]).isSome) (by decide +kernel)
  obtain ⟨⟨t, s'⟩, hp⟩ := Option.isSome_iff_exists.mp h
  have e' := exec_of_perform hp
  have ht : t.map Prod.fst = [.task, .task, .task, .task, .app (.accept 0 8),
      .app (.lisShare 0), .app (.packet 0 (.packet (frame Ep.msgA))), .app (.route 0),
      .app (.route 0)] := perform_length hp
  refine ⟨tr, s, t, s', e, e', ?_, ?_⟩
  · intro x hx
    have := List.mem_map_of_mem (f := Prod.fst) hx
    rw [ht] at this
    generalize x.1 = a at this ⊢
    simp only [List.mem_cons, List.not_mem_nil, or_false] at this
    rcases this with rfl | rfl | rfl | rfl | rfl | rfl | rfl | rfl | rfl <;> simp
  · have := congrArg List.length ht
    simpa using this

/-! ### TCP -/

/-- A step while nobody calls and nothing comes from the network: of the tasks of the endpoint, of the
calls in progress, or of `send` and `recv` of a socket; these get on. -/
def Spec.TcpNode.Silent (a : TcpNode.Action) : Prop :=
  (∃ y, a = .app y ∧ ((∃ ok, y = .ep ok) ∨ (∃ l, y = .lisShare l) ∨ (∃ l, y = .lisCmd l) ∨
      (∃ c, y = .route c) ∨ (∃ c, y = .connCmd c) ∨ ∃ k, y = .stubStep k)) ∨
    (∃ c x, a = .read c x ∧ x ≠ .wouldBlock) ∨
    ∃ c x, a = .write c x ∧ x ≠ .wouldBlock ∧ x ≠ .wrote 0

/-- **C88 fails for TCP.** Once the remote has closed its side of a connection, and everything that had
arrived was read, the connection's task goes round in circles: it can do two steps, none of them with
input from the network, and is where it was before. -/
theorem C88_tcp_false {s : TcpNode.State} {c : Nat} (h1 : (s.ep.conns c).alive = true)
    (h2 : (s.ep.conns c).pc = .wait) (h3 : s.inb c = []) (h4 : s.eof c = true) :
    ∀ n, ∃ t, Exec TcpNode.step s t s ∧ (∀ x ∈ t, TcpNode.Silent x.1) ∧ t.length = 2 * n := by
  have hr : receive (.packet []) = .route [] := (receive_route _ _).mpr .nil
  have key : ∃ t, Exec TcpNode.step s t s ∧ (∀ x ∈ t, TcpNode.Silent x.1) ∧ t.length = 2 := by
    have hs1 : TcpNode.step s (.read c (.read 1400)) =
        some ({ s with
          ep := { s.ep with conns := upd s.ep.conns c { s.ep.conns c with pc := .route [] } }
          inb := upd s.inb c [] }, ⟨some (.packet c (.packet []), .none), none⟩) := by
      simp [TcpNode.step, TcpNode.read, h1, h2, h3, h4, TcpNode.possible, Tcp.recv, TcpNode.does,
        Ep.step, Ep.packet, hr]
    have hs2 : TcpNode.step { s with
          ep := { s.ep with conns := upd s.ep.conns c { s.ep.conns c with pc := .route [] } }
          inb := upd s.inb c [] } (.app (.route c)) =
        some (s, ⟨some (.route c, .none), none⟩) := by
      simp only [TcpNode.step, TcpNode.does, Ep.step, Ep.route, upd_same]
      congr 2
      have h5 : upd s.inb c [] = s.inb := by
        funext d; simp only [upd]; split <;> simp_all
      have h6 : ∀ v, upd (upd s.ep.conns c v) c { s.ep.conns c with pc := .wait } = s.ep.conns := by
        intro v; funext d; simp only [upd]
        split
        · subst_vars; rw [← h2]
        · rfl
      rw [h5, h6]
    refine ⟨_, .cons hs1 (.cons hs2 .nil), ?_, rfl⟩
    intro x hx
    simp only [List.mem_cons, List.not_mem_nil, or_false] at hx
    rcases hx with rfl | rfl
    · exact .inr (.inl ⟨_, _, rfl, nofun⟩)
    · exact .inl ⟨_, rfl, by simp⟩
  obtain ⟨t, h5, h6, h7⟩ := key
  intro n
  induction n with
  | zero => exact ⟨[], .nil, by simp, rfl⟩
  | succ n ih =>
    obtain ⟨u, h8, h9, h10⟩ := ih
    refine ⟨u ++ t, h8.append h5, ?_, by rw [List.length_append, h7, h10]; omega⟩
    intro x hx
    exact (List.mem_append.mp hx).elim (h9 x) (h6 x)

/-- A remote that closes its side of the connection to a proxy. -/
example : ∃ tr s, Exec TcpNode.step TcpNode.init tr s ∧ (s.ep.conns 0).alive = true ∧
    (s.ep.conns 0).pc = .wait ∧ s.inb 0 = [] ∧ s.eof 0 = true :=
  let ⟨tr, s, e, h⟩ := exec_by (Spec.TcpNode.sending.take 8 ++ [.shut 0])
    (fun _ s => (s.ep.conns 0).alive = true ∧ (s.ep.conns 0).pc = .wait ∧ s.inb 0 = [] ∧
      s.eof 0 = true) (by decide +kernel)
  ⟨tr, s, e, of_decide_eq_true h⟩

/-- **C88**, the part that holds for TCP: as long as no remote has closed its side of a connection,
there is no endless run without calls and without input from the network. What is missing: remotes
that have closed their side, see above. -/
theorem C88_tcp_partial {tr : Spec.TcpNode.Trace} {s : TcpNode.State}
    (e : Exec TcpNode.step TcpNode.init tr s) (h : ∀ c o, (.shut c, o) ∉ tr) :
    ¬ ∃ (f : Nat → TcpNode.State) (x : Nat → TcpNode.Action) (o : Nat → TcpNode.Obs), f 0 = s ∧
      ∀ n, TcpNode.step (f n) (x n) = some (f (n + 1), o n) ∧ TcpNode.Silent (x n) := by
  rintro ⟨f, x, o, h0, hf⟩
  have hi : ∀ n, (x n).internal = true := by
    intro n
    rcases (hf n).2 with ⟨y, h, hy⟩ | ⟨c, a, h, ha⟩ | ⟨c, a, h, ha⟩
    · rw [h]
      rcases hy with ⟨_, rfl⟩ | ⟨_, rfl⟩ | ⟨_, rfl⟩ | ⟨_, rfl⟩ | ⟨_, rfl⟩ | ⟨_, rfl⟩ <;> rfl
    · rw [h]; simp [TcpNode.Action.internal, ha]
    · rw [h]; simp [TcpNode.Action.internal, ha]
  have hr : ∀ n, (∃ t, Exec TcpNode.step TcpNode.init t (f n)) ∧ ∀ c, (f n).eof c = false := by
    intro n
    induction n with
    | zero => rw [h0]; exact ⟨⟨tr, e⟩, TcpNode.eof_none e h⟩
    | succ n ih =>
      obtain ⟨⟨t, et⟩, hc⟩ := ih
      refine ⟨⟨_, et.snoc (hf n).1⟩, ?_⟩
      rw [TcpNode.eof_stays (hf n).1 (hi n)]
      exact hc
  have wf : WellFounded (Prod.Lex (· < · : Nat → Nat → Prop) (· < · : Nat → Nat → Prop)) :=
    (Prod.lex Nat.lt_wfRel Nat.lt_wfRel).wf
  suffices H : ∀ p n, ((f n).work, (f n).left) = p → False from H _ 0 rfl
  intro p
  induction p using wf.induction with
  | _ p ih =>
    rintro n rfl
    obtain ⟨⟨t, et⟩, hc⟩ := hr n
    refine ih _ ?_ (n + 1) rfl
    rcases TcpNode.work_step et hc (hf n).1 (hi n) with h | ⟨h1, h2⟩
    · exact .left _ _ h
    · rw [h1]; exact .right _ h2

/-- A proxy that has something to send on a connection that is still open. -/
example : ∃ tr s, Exec TcpNode.step TcpNode.init tr s ∧ (∀ c o, (.shut c, o) ∉ tr) ∧
    (s.ep.conns 0).out = some (frame Ep.msgB') := by
  obtain ⟨tr, s, e, h⟩ := exec_by (step := TcpNode.step) (s := TcpNode.init) Spec.TcpNode.sending
    (fun tr s => decide ((∀ x ∈ tr, (match x.1 with
        | .shut _ => false
        | _ => true : Bool) = true) ∧ (s.ep.conns 0).out = some (frame Ep.msgB'))) (by decide +kernel)
  obtain ⟨h1, h2⟩ := of_decide_eq_true h
  exact ⟨tr, s, e, fun c o hx => Bool.noConfusion (h1 _ hx), h2⟩

end Rsomeip
