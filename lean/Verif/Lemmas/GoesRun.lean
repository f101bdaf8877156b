import Verif.Spec.Goes
import Verif.Lemmas.FairRun
import Verif.Lemmas.NodeRun
import Verif.Lemmas.TcpNetRun

/-! # Runs in which the tasks go on and the users read -/

namespace Rsomeip.Rt.Ep

open Spec.Ep

variable {dg : Bool} {s s' : State} {o : Obs}

theorem idle_stays {x : Action} (h : step dg s x = some (s', o)) (hx : ∀ k a m, x ≠ .stubSend k a m)
    (hi : ∀ k, (s.stubs k).pc = .idle) (k : Nat) : (s'.stubs k).pc = .idle := by
  have := hi k
  have h1 : ∀ k t c j, (answer s k t c j).pc = .idle := fun k t c j => by simp [answer, hi]
  have h2 : ∀ k t j, (refuse s k t j).pc = .idle := fun k t j => by simp [refuse, hi]
  have h3 : ∀ k pc j, (s.stubAt k pc j).pc = if j = k then pc else .idle := fun k pc j => by
    simp only [State.stubAt, upd]
    split <;> simp [hi]
  cases move_of_step h <;> first | exact this | exact absurd rfl (hx _ _ _) | exact h1 .. | exact h2 .. |
    grind [upd]

theorem stub_reads {k : Nat} (h : step dg s (.stubRecv k) = some (s', o))
    (hq : (s.ifaces (s.stubs k).iface).queue.length ≤ 16) :
    (s'.ifaces (s'.stubs k).iface).queue.length < 16 := by
  cases move_of_step h <;> (simp_all [upd]; try omega)

theorem proxy_reads {p : Nat} (h : step dg s (.proxyRecv p) = some (s', o))
    (hq : (s.ifaces (s.proxies p).iface).queue.length ≤ 16) :
    (s'.ifaces (s'.proxies p).iface).queue.length < 16 := by
  cases move_of_step h <;> (simp_all [upd]; try omega)

theorem stub_can {k : Nat} (ha : (s.stubs k).alive = true) (hi : (s.stubs k).pc = .idle)
    (hq : 16 ≤ (s.ifaces (s.stubs k).iface).queue.length) : step dg s (.stubRecv k) ≠ none := by
  cases h : (s.ifaces (s.stubs k).iface).queue with
  | nil => rw [h] at hq; simp at hq
  | cons y q => simp [step, stubRecv, ha, hi, h]

theorem proxy_can {p : Nat} (ha : (s.proxies p).alive = true)
    (hq : 16 ≤ (s.ifaces (s.proxies p).iface).queue.length) : step dg s (.proxyRecv p) ≠ none := by
  cases h : (s.ifaces (s.proxies p).iface).queue with
  | nil => rw [h] at hq; simp at hq
  | cons y q => simp only [step, proxyRecv, ha, h]; nofun

/-- If the user of a stub reads whenever that is possible, its queue is not full for ever. -/
theorem stub_room {f : Nat → State} {k L : Nat} (hc : ∀ n i, ((f n).ifaces i).queue.length ≤ 16)
    (hi : ∀ n, L ≤ n → ((f n).stubs k).pc = .idle)
    (hf : (∀ M, ∃ n, M ≤ n ∧ step dg (f n) (.stubRecv k) ≠ none) →
      ∀ M, ∃ n, M ≤ n ∧ ∃ o, step dg (f n) (.stubRecv k) = some (f (n + 1), o)) (N : Nat) :
    ∃ n, N ≤ n ∧ (((f n).stubs k).alive = true → ((f n).ifaces ((f n).stubs k).iface).queue.length < 16) := by
  apply Classical.byContradiction
  intro hn
  have h5 : ∀ n, N ≤ n → ((f n).stubs k).alive = true ∧
      16 ≤ ((f n).ifaces ((f n).stubs k).iface).queue.length := by
    intro n h
    by_cases ha : ((f n).stubs k).alive = true
    · exact ⟨ha, Nat.not_lt.mp fun h' => hn ⟨n, h, fun _ => h'⟩⟩
    · exact absurd ⟨n, h, fun h => absurd h ha⟩ hn
  obtain ⟨n, h6, o, h7⟩ := hf (fun M => ⟨max M (max N L), Nat.le_max_left .., by
    obtain ⟨h6, h7⟩ := h5 (max M (max N L)) (by omega)
    exact stub_can h6 (hi _ (by omega)) h7⟩) N
  have := stub_reads h7 (hc n _)
  have := (h5 (n + 1) (by omega)).2
  omega

theorem proxy_room {f : Nat → State} {p : Nat} (hc : ∀ n i, ((f n).ifaces i).queue.length ≤ 16)
    (hf : (∀ M, ∃ n, M ≤ n ∧ step dg (f n) (.proxyRecv p) ≠ none) →
      ∀ M, ∃ n, M ≤ n ∧ ∃ o, step dg (f n) (.proxyRecv p) = some (f (n + 1), o)) (N : Nat) :
    ∃ n, N ≤ n ∧
      (((f n).proxies p).alive = true → ((f n).ifaces ((f n).proxies p).iface).queue.length < 16) := by
  apply Classical.byContradiction
  intro hn
  have h5 : ∀ n, N ≤ n → ((f n).proxies p).alive = true ∧
      16 ≤ ((f n).ifaces ((f n).proxies p).iface).queue.length := by
    intro n h
    by_cases ha : ((f n).proxies p).alive = true
    · exact ⟨ha, Nat.not_lt.mp fun h' => hn ⟨n, h, fun _ => h'⟩⟩
    · exact absurd ⟨n, h, fun h => absurd h ha⟩ hn
  obtain ⟨n, h6, o, h7⟩ := hf (fun M => ⟨max M N, Nat.le_max_left .., by
    obtain ⟨h6, h7⟩ := h5 (max M N) (by omega)
    exact proxy_can h6 h7⟩) N
  have := proxy_reads h7 (hc n _)
  have := (h5 (n + 1) (by omega)).2
  omega

theorem ep_any {e : State} {ok : Bool} (h : step dg e (.ep ok) ≠ none) : step dg e (.ep true) ≠ none := by
  cases ok with
  | true => exact h
  | false =>
    simp only [step] at h ⊢
    unfold ep at h ⊢
    split at h <;> simp_all
    all_goals grind

end Rsomeip.Rt.Ep

namespace Rsomeip.Rt.Node

open Spec Spec.Node

/-- Those who take turns. -/
def turn : Nat × Nat → Action → Prop
  | (0, _) => EpStep
  | (1, l) => (· = .app (.lisCmd l))
  | (2, l) => AcceptStep l
  | (3, l) => (· = .app (.lisShare l))
  | (4, c) => (· = .app (.route c))
  | (5, c) => RecvStep c
  | (6, c) => SendStep c
  | (7, _) => (· = .task)
  | (8, k) => (· = .app (.stubRecv k))
  | (9, p) => (· = .app (.proxyRecv p))
  | _ => fun _ => False

theorem turn_sent {i : Nat × Nat} {c : Nat} (h : turn i (.app (.sent c false))) : i = (6, c) := by
  unfold turn at h
  split at h <;> simp_all [EpStep, AcceptStep, RecvStep, SendStep]

theorem sent_small {s : State} {c : Nat} (h : step s (.app (.sent c false)) ≠ none)
    (hn : ¬ ∃ b, (s.ep.conns c).out = some b ∧ 1400 < b.length) :
    step s (.app (.sent c true)) ≠ none := by
  cases ho : (s.ep.conns c).out with
  | none => simp [step, Ep.step, Ep.sent, ho] at h
  | some b =>
    have hb : ¬ b.length > Udp.maxDatagramSize := fun hb => hn ⟨b, ho, hb⟩
    cases ha : (s.ep.conns c).alive with
    | true =>
      simp [step, Ep.step, Ep.sent, ho, appCall, sendCall, Udp.send, hb, release, upd, ha, still,
        Except.isOk, Except.toBool]
    | false =>
      simp [step, Ep.step, Ep.sent, ho, appCall, sendCall, Udp.send, hb, release, upd, ha, call,
        Except.isOk, Except.toBool, Ep.Conn.ended] at h ⊢
      grind

theorem goes {s s' : State} {i : Nat × Nat} {a : Action} {o : Obs} (ha : turn i a)
    (h : step s a = some (s', o))
    (hl : ∀ c, a = .app (.sent c false) → ∃ b, (s.ep.conns c).out = some b ∧ 1400 < b.length) :
    Spec.Node.Goes (a, o) := by
  unfold turn at ha
  split at ha
  · obtain ⟨ok, rfl⟩ := ha
    cases ok with
    | true => rfl
    | false =>
      simp only [step] at h
      split at h <;> simp [appCall] at h
  · subst ha; trivial
  · obtain ⟨_, rfl⟩ := ha; trivial
  · subst ha; trivial
  · subst ha; trivial
  · obtain ⟨_, rfl⟩ := ha; trivial
  · rcases ha with rfl | ⟨ok, rfl⟩
    · trivial
    · cases ok with
      | true => rfl
      | false =>
        obtain ⟨b, h1, h2⟩ := hl _ rfl
        cases move_of_step h with
        | app x e o s' us out he hc =>
          simp only [Ep.step, Ep.sent, h1] at he
          cases he
          exact ⟨b, rfl, h2⟩
        | net _ u v w ha => exact absurd rfl (ha _)
  · subst ha; trivial
  · subst ha; trivial
  · subst ha; trivial
  · exact ha.elim

/-- If no call of `send_to` is in progress, then everything can go on, with all tasks taking turns and all
users reading. -/
theorem goes_on {tr : Trace} {s : State} (e : Exec step init tr s)
    (hi : ∀ k, (s.ep.stubs k).pc = .idle) :
    ∃ r : Run, Fair r ∧ Read r ∧ Settles r ∧ r.state tr.length = s ∧ r.hist tr.length = tr ∧
      ∀ n x, tr.length ≤ n → r.act n = some x → Spec.Node.Goes x := by
  obtain ⟨r, h1, h2, h3, h4⟩ := Endless.fair_after turn
    (fun s a => ∀ c, a = .app (.sent c false) → ∃ b, (s.ep.conns c).out = some b ∧ 1400 < b.length)
    (fun s i a ha hs => by
      by_cases hc : ∃ c, a = .app (.sent c false) ∧ ¬ ∃ b, (s.ep.conns c).out = some b ∧ 1400 < b.length
      · obtain ⟨c, rfl, hn⟩ := hc
        obtain rfl := turn_sent ha
        exact ⟨.app (.sent c true), .inr ⟨_, rfl⟩, nofun, sent_small hs hn⟩
      · exact ⟨a, ha, fun c h => Classical.byContradiction fun hn => hc ⟨c, h, hn⟩, hs⟩) e
  have g : ∀ n x, tr.length ≤ n → r.act n = some x → Spec.Node.Goes x := by
    intro n x hn hx
    obtain ⟨⟨i, h5⟩, h6⟩ := h4 n x.1 x.2 hn hx
    rcases r.move n with ⟨h7, _⟩ | ⟨a, o, h7, h8⟩
    · rw [hx] at h7; cases h7
    · rw [hx] at h7; cases h7
      exact goes h5 h8 h6
  have idle : ∀ n, tr.length ≤ n → ∀ k, ((r.state n).ep.stubs k).pc = .idle := by
    intro n hn
    induction n, hn using Nat.le_induction with
    | base => rw [h2]; exact hi
    | succ n hn ih =>
      rcases r.move n with ⟨_, h6⟩ | ⟨a, o, h5, h6⟩
      · rw [h6]; exact ih
      · have h7 := g n _ hn h5
        generalize r.state (n + 1) = t at h6
        cases move_of_step h6 with
        | app x e o s' us out he hc =>
          rw [hc.ep]
          refine Ep.idle_stays he ?_ ih
          rintro k b m rfl
          exact h7
        | net _ u v w ha => exact ih
  have does : ∀ {x : Ep.Action}, (∀ s e o, appCall s x e o = still s e o) → r.FairTo (· = .app x) →
      (∀ M, ∃ n, M ≤ n ∧ Ep.step true (r.state n).ep x ≠ none) →
      ∀ M, ∃ n, M ≤ n ∧ ∃ o, Ep.step true (r.state n).ep x = some ((r.state (n + 1)).ep, o) := by
    intro x hx hf hM M
    obtain ⟨n, h5, a, o, h6, rfl⟩ := hf (fun M => by
      obtain ⟨n, h5, h6⟩ := hM M
      obtain ⟨⟨s', o⟩, h6⟩ := Option.ne_none_iff_exists'.mp h6
      obtain ⟨s', w, h6⟩ := can_still h6 (hx _ _ _)
      exact ⟨n, h5, _, _, _, rfl, h6⟩) M
    refine ⟨n, h5, ?_⟩
    rcases r.move n with ⟨h7, _⟩ | ⟨a, o, h7, h8⟩
    · rw [h6] at h7; cases h7
    · rw [h6] at h7; cases h7
      generalize r.state (n + 1) = t at h8
      cases move_of_step h8 with
      | app x e o s' us out he hc => exact ⟨o, by rw [hc.ep]; exact he⟩
      | net _ u v w ha => exact absurd rfl (ha _)
  refine ⟨r, ?_, ?_, ?_, h2, h3, g⟩
  · refine ⟨h1 (0, 0), fun l => h1 (1, l), fun l => h1 (2, l), fun l => h1 (3, l), fun c => h1 (4, c),
      fun c => h1 (5, c), fun c => h1 (6, c), fun k hk => ?_, h1 (7, 0)⟩
    obtain ⟨n, h5, a, o, s', rfl, h6⟩ := hk tr.length
    cases move_of_step h6 with
    | app x e o s' us out he hc => simp [Ep.step, Ep.stubStep, idle n h5 k] at he
    | net _ u v w ha => exact absurd rfl (ha _)
  · have hc := fun n i => (Ep.caps (parts (r.exec n)).1).iface i
    exact ⟨fun k => Ep.stub_room hc (fun n hn => idle n hn k) (does (fun _ _ _ => rfl) (h1 (8, k))),
      fun p => Ep.proxy_room hc (does (fun _ _ _ => rfl) (h1 (9, p)))⟩
  · refine ⟨tr.length, fun n hn => ?_⟩
    rintro ⟨a, o, h5, ⟨i, j, rfl⟩ | ⟨b, c, rfl⟩⟩
    · exact g n _ hn h5
    · exact g n _ hn h5

end Rsomeip.Rt.Node

namespace Rsomeip.Rt.TcpNode

open Spec Spec.TcpNode

/-- Those who take turns. -/
def turn : Nat × Nat → Action → Prop
  | (0, _) => EpStep
  | (1, l) => (· = .app (.lisCmd l))
  | (2, l) => (· = .app (.lisShare l))
  | (3, c) => (· = .app (.route c))
  | (4, c) => (· = .app (.connCmd c))
  | (5, c) => WriteStep c
  | (6, c) => ReadStep c
  | (7, k) => (· = .app (.stubRecv k))
  | (8, p) => (· = .app (.proxyRecv p))
  | _ => fun _ => False

theorem turn_lt {k c : Nat} {a : Action} (h : turn (k, c) a) : k < 9 := by
  match k, h with
  | 0, _ | 1, _ | 2, _ | 3, _ | 4, _ | 5, _ | 6, _ | 7, _ | 8, _ => omega
  | k + 9, h => exact h.elim

theorem goes {i : Nat × Nat} {a : Action} (ha : turn i a) (hl : a ≠ .app (.ep false)) :
    Spec.TcpNode.Goes a := by
  unfold turn at ha
  split at ha
  · obtain ⟨ok, rfl⟩ := ha
    cases ok with
    | true => rfl
    | false => exact absurd rfl hl
  all_goals first
    | (subst ha; trivial)
    | (obtain ⟨n, rfl⟩ := ha; trivial)
    | (obtain ⟨n, hn, rfl⟩ := ha; exact hn)
    | exact ha.elim

theorem turn_any {s : State} {i : Nat × Nat} {a : Action} (ha : turn i a) (hs : step s a ≠ none) :
    ∃ b, turn i b ∧ b ≠ .app (.ep false) ∧ step s b ≠ none := by
  by_cases hc : a = .app (.ep false)
  · subst hc
    have hi : i.1 = 0 := by
      unfold turn at ha
      split at ha <;> simp_all [EpStep, WriteStep, ReadStep]
    obtain ⟨i, j⟩ := i
    obtain rfl : i = 0 := hi
    refine ⟨.app (.ep true), ⟨_, rfl⟩, by simp, ?_⟩
    have h1 : Ep.step false s.ep (.ep false) ≠ none := by
      intro h
      simp [step, does, h] at hs
    obtain ⟨⟨e, o⟩, h2⟩ := Option.ne_none_iff_exists'.mp (Ep.ep_any h1)
    simp [step, does, h2]
  · exact ⟨a, ha, hc, hs⟩

theorem idle_stays {s s' : State} {x : Action} {o : Obs} (h : step s x = some (s', o))
    (hx : Spec.TcpNode.Goes x ∨ ∃ c b, x = .arrive c b) (hi : ∀ k, (s.ep.stubs k).pc = .idle) (k : Nat) :
    (s'.ep.stubs k).pc = .idle := by
  cases move_of_step h <;> try exact hi k
  case app he h1 h2 h3 =>
    refine Ep.idle_stays h3 ?_ hi k
    rintro k b m rfl
    rcases hx with hx | ⟨_, _, hx⟩
    · exact hx
    · cases hx
  all_goals exact Ep.idle_stays (by assumption) (fun _ _ _ h => by cases h) hi k

/-- If no call of `send_to` is in progress, then everything can go on, with all tasks taking turns and all
users reading. -/
theorem reads_on {tr : Trace} {s : State} (e : Exec step init tr s)
    (hi : ∀ k, (s.ep.stubs k).pc = .idle) :
    ∃ r : Run, (Fair r ∧ Read r ∧ Settles r ∧ r.state tr.length = s ∧ r.hist tr.length = tr ∧
      ∀ n x, tr.length ≤ n → r.act n = some x → Spec.TcpNode.Goes x.1) ∧
      ∀ p, r.FairTo (· = .app (.proxyRecv p)) := by
  obtain ⟨r, h1, h2, h3, h4⟩ := Endless.fair_after turn (fun _ a => a ≠ .app (.ep false))
    (fun s i a ha hs => turn_any ha hs) e
  have g : ∀ n x, tr.length ≤ n → r.act n = some x → Spec.TcpNode.Goes x.1 := by
    intro n x hn hx
    obtain ⟨⟨i, h5⟩, h6⟩ := h4 n x.1 x.2 hn hx
    exact goes h5 h6
  have idle : ∀ n, tr.length ≤ n → ∀ k, ((r.state n).ep.stubs k).pc = .idle := by
    intro n hn
    induction n, hn using Nat.le_induction with
    | base => rw [h2]; exact hi
    | succ n hn ih =>
      rcases r.move n with ⟨_, h6⟩ | ⟨a, o, h5, h6⟩
      · rw [h6]; exact ih
      · exact idle_stays h6 (.inl (g n _ hn h5)) ih
  have does : ∀ {x : Ep.Action}, (∀ c p, x ≠ .packet c p) → (∀ c ok, x ≠ .sent c ok) →
      r.FairTo (· = .app x) →
      (∀ M, ∃ n, M ≤ n ∧ Ep.step false (r.state n).ep x ≠ none) →
      ∀ M, ∃ n, M ≤ n ∧ ∃ o, Ep.step false (r.state n).ep x = some ((r.state (n + 1)).ep, o) := by
    intro x hx1 hx2 hf hM M
    obtain ⟨n, h5, a, o, h6, rfl⟩ := hf (fun M => by
      obtain ⟨n, h5, h6⟩ := hM M
      obtain ⟨⟨s', o⟩, h6⟩ := Option.ne_none_iff_exists'.mp h6
      obtain ⟨s', w, h6⟩ := can_app (s := r.state n) h6 hx1 hx2
      exact ⟨n, h5, _, _, _, rfl, h6⟩) M
    refine ⟨n, h5, ?_⟩
    rcases r.move n with ⟨h7, _⟩ | ⟨a, o, h7, h8⟩
    · rw [h6] at h7; cases h7
    · rw [h6] at h7; cases h7
      generalize r.state (n + 1) = t at h8
      cases move_of_step h8 with
      | app x e o _ _ he => exact ⟨o, he⟩
  refine ⟨r, ⟨?_, ?_, ?_, h2, h3, g⟩, fun p => h1 (8, p)⟩
  · refine ⟨h1 (0, 0), fun l => h1 (1, l), fun c => h1 (3, c), fun c => h1 (4, c), fun c => h1 (5, c),
      fun c => h1 (6, c), fun k hk => ?_⟩
    obtain ⟨n, h5, a, o, s', rfl, h6⟩ := hk tr.length
    cases move_of_step h6 with
    | app x e o _ _ he => simp [Ep.step, Ep.stubStep, idle n h5 k] at he
  · have hc := fun n i => (Ep.caps (part (r.exec n))).iface i
    exact ⟨fun k => Ep.stub_room hc (fun n hn => idle n hn k) (does nofun nofun (h1 (7, k))),
      fun p => Ep.proxy_room hc (does nofun nofun (h1 (8, p)))⟩
  · refine ⟨tr.length, fun n hn => ?_⟩
    rintro ⟨a, o, h5, ⟨i, j, rfl⟩ | ⟨b, c, rfl⟩⟩
    · exact g n _ hn h5
    · exact g n _ hn h5

theorem goes_on {tr : Trace} {s : State} (e : Exec step init tr s)
    (hi : ∀ k, (s.ep.stubs k).pc = .idle) :
    ∃ r : Run, Fair r ∧ Read r ∧ Settles r ∧ r.state tr.length = s ∧ r.hist tr.length = tr ∧
      ∀ n x, tr.length ≤ n → r.act n = some x → Spec.TcpNode.Goes x.1 :=
  let ⟨r, h, _⟩ := reads_on e hi
  ⟨r, h⟩

end Rsomeip.Rt.TcpNode

namespace Rsomeip.Rt.TcpNet

open Spec Spec.TcpNet
open Spec.TcpNode (EpStep WriteStep ReadStep)

variable {own : Addr → Bool}

/-- Those who take turns. -/
def turn (own : Addr → Bool) : Nat × Nat × Nat → Action → Prop
  | (9, n, c) => At n (ArriveStep c)
  | (10, n, l) => At n fun x => ∃ m, own m = true ∧ x = .app (.accept l m)
  | (k, n, c) => At n (TcpNode.turn (k, c))

theorem turn_node (k n c : Nat) (h : k < 9) : turn own (k, n, c) = At n (TcpNode.turn (k, c)) := by
  unfold turn
  split
  · rename_i h'; cases h'; omega
  · rename_i h'; cases h'; omega
  · rename_i h'; cases h'; rfl

/-- A step that is not one with which a connection is refused, and in which nothing arrives from elsewhere. -/
def Fine (s : State) (x : Action) : Prop :=
  x.2.1 ≠ .app (.ep false) ∧ ∀ c b, x.2.1 = .arrive c b → s.peer x.1 c ≠ none

theorem turn_kinds {i : Nat × Nat × Nat} {x : Action} (h : turn own i x) :
    (∃ c b, x.2.1 = .arrive c b ∧ i = (9, x.1, c)) ∨
    (∃ l m, own m = true ∧ x.2.1 = .app (.accept l m)) ∨
    (i.1 < 9 ∧ TcpNode.turn (i.1, i.2.2) x.2.1) := by
  unfold turn at h
  split at h
  · obtain ⟨rfl, b, -, h⟩ := h
    exact .inl ⟨_, b, h, rfl⟩
  · obtain ⟨rfl, m, h1, h2⟩ := h
    exact .inr (.inl ⟨_, m, h1, h2⟩)
  · rename_i k n c h1 h2
    obtain ⟨rfl, h⟩ := h
    exact .inr (.inr ⟨TcpNode.turn_lt h, h⟩)

theorem node_step {s : State} {n : Addr} {d : Nat} {a : TcpNode.Action} (hn : own n = true)
    (h1 : ∀ l b, a ≠ .app (.accept l b)) (h2 : ∀ c b, a ≠ .arrive c b)
    (h : TcpNode.step (s.nodes n) a ≠ none) : step own s (n, a, d) ≠ none := by
  obtain ⟨⟨t, o⟩, h⟩ := Option.ne_none_iff_exists'.mp h
  have h3 : possible own s n d a = true := by
    unfold possible
    split
    · exact absurd rfl (h1 _ _)
    · exact absurd rfl (h2 _ _)
    · rfl
  simp [step, hn, h3, h]

theorem turn_plain {i : Nat × Nat} {a : TcpNode.Action} (h : TcpNode.turn i a) :
    (∀ l b, a ≠ .app (.accept l b)) ∧ ∀ c b, a ≠ .arrive c b := by
  unfold TcpNode.turn at h
  split at h <;> first
    | (subst h; simp)
    | (obtain ⟨_, rfl⟩ := h; simp)
    | (obtain ⟨_, _, rfl⟩ := h; simp)
    | exact h.elim

/-- If no call of `send_to` is in progress, then everything can go on, with all tasks taking turns and all
users reading. -/
theorem goes_on {tr : Trace} {s : State} (e : Exec (step own) init tr s)
    (hi : ∀ n k, ((s.nodes n).ep.stubs k).pc = .idle) :
    ∃ r : Run own, Fair r ∧ (∀ n, Read r n) ∧ (∀ n, Settles r n) ∧ r.state tr.length = s ∧
      r.hist tr.length = tr ∧
      ∀ t x, tr.length ≤ t → r.act t = some x → Spec.TcpNet.Goes own (r.hist t) x.1 := by
  obtain ⟨r, h1, h2, h3, h4⟩ := Endless.fair_after' (turn own) Fine e
  have g : ∀ t x, tr.length ≤ t → r.act t = some x → Spec.TcpNet.Goes own (r.hist t) x.1 := by
    intro t x hn hx
    obtain ⟨⟨i, h5⟩, h6, h7⟩ := h4 t x.1 x.2 hn hx
    rcases turn_kinds h5 with ⟨c, b, h8, -⟩ | h8 | ⟨-, h8⟩
    · have hl := linked (r.exec t)
      cases hp : (r.state t).peer x.1.1 c with
      | none => exact absurd hp (h7 c b h8)
      | some w =>
        obtain ⟨h9, h10⟩ := hl.addr _ _ _ _ hp
        refine .inr (.inr ⟨c, b, w.1, hl.owned _ _ _ _ hp, h8, ?_⟩)
        rw [← h10]
        exact (Ep.good_hist (TcpNode.part (each (r.exec t) x.1.1))).2.conns c h9
    · exact .inr (.inl h8)
    · exact .inl (TcpNode.goes h8 h6)
  have idle : ∀ t, tr.length ≤ t → ∀ n k, (((r.state t).nodes n).ep.stubs k).pc = .idle := by
    intro t ht
    induction t, ht using Nat.le_induction with
    | base => rw [h2]; exact hi
    | succ t ht ih =>
      rcases r.move t with ⟨_, h6⟩ | ⟨a, o, h5, h6⟩
      · rw [h6]; exact ih
      · obtain ⟨-, -, z, hz, h7⟩ := step_inv h6
        rw [h7]
        intro n
        by_cases hn : n = a.1
        · subst hn
          dsimp only
          rw [upd_same]
          rcases g t _ ht h5 with h8 | ⟨l, m, h8, h9⟩ | ⟨c, b, _, _, h9, _⟩
          · exact TcpNode.idle_stays hz (.inl h8) (ih _)
          · dsimp only at h9
            rw [h9] at hz
            cases TcpNode.move_of_step hz with
            | app _ _ _ _ _ he => exact Ep.idle_stays he nofun (ih _)
          · exact TcpNode.idle_stays hz (.inr ⟨_, _, h9⟩) (ih _)
        · dsimp only
          rw [upd_ne _ _ hn]
          exact ih n
  -- every program takes its turns
  have turns : ∀ n, own n = true → ∀ k c, k < 9 → r.FairTo (At n (TcpNode.turn (k, c))) := by
    intro n hn k c hk
    rw [← turn_node (own := own) k n c hk]
    refine h1 _ ⟨0, fun t x _ hx hs => ?_⟩
    rw [turn_node k n c hk] at hx ⊢
    obtain ⟨rfl, hx⟩ := hx
    obtain ⟨⟨s', o⟩, hs⟩ := Option.ne_none_iff_exists'.mp hs
    obtain ⟨-, -, z, hz, -⟩ := step_inv hs
    obtain ⟨b, h5, h6, h7⟩ := TcpNode.turn_any hx (by rw [hz]; nofun)
    exact ⟨(x.1, b, 0), ⟨rfl, h5⟩, ⟨h6, fun c b h => absurd h ((turn_plain h5).2 c b)⟩,
      node_step hn (turn_plain h5).1 (turn_plain h5).2 h7⟩
  have arrives : ∀ n c, (∃ t, (r.state t).peer n c ≠ none) → r.FairTo (At n (ArriveStep c)) := by
    rintro n c ⟨t, ht⟩
    obtain ⟨w, hw⟩ := Option.ne_none_iff_exists'.mp ht
    refine h1 (9, n, c) ⟨t, fun u x hu hx hs => ⟨x, hx, ⟨?_, ?_⟩, hs⟩⟩
    · obtain ⟨_, b, _, h⟩ := hx
      rw [h]; nofun
    · obtain ⟨h5, b, _, h⟩ := hx
      rw [h, h5]
      rintro c' b' h'
      cases h'
      obtain ⟨_, -, h6⟩ := r.segment hu
      rw [peer_stays (r.exec t) h6 hw]
      nofun
  have does : ∀ {n : Addr} {x : Ep.Action}, (∀ c p, x ≠ .packet c p) → (∀ c ok, x ≠ .sent c ok) →
      (∀ l a, x ≠ .accept l a) →
      (own n = true → r.FairTo (At n (· = .app x))) → own n = true →
      (∀ M, ∃ t, M ≤ t ∧ Ep.step false ((r.state t).nodes n).ep x ≠ none) →
      ∀ M, ∃ t, M ≤ t ∧ ∃ o,
        Ep.step false ((r.state t).nodes n).ep x = some (((r.state (t + 1)).nodes n).ep, o) := by
    intro n x hx1 hx2 hx3 hf hn hM M
    obtain ⟨t, h5, a, o, h6, h7, h8⟩ := hf hn (fun M => by
      obtain ⟨t, h5, h6⟩ := hM M
      obtain ⟨⟨s', o⟩, h6⟩ := Option.ne_none_iff_exists'.mp h6
      obtain ⟨s', w, h6⟩ := TcpNode.can_app (s := (r.state t).nodes n) h6 hx1 hx2
      have h7 : step own (r.state t) (n, .app x, 0) ≠ none :=
        node_step hn (fun l b h => hx3 l b (TcpNode.Action.app.inj h)) nofun (by rw [h6]; nofun)
      obtain ⟨⟨s'', o'⟩, h7⟩ := Option.ne_none_iff_exists'.mp h7
      exact ⟨t, h5, _, _, _, ⟨rfl, rfl⟩, h7⟩) M
    refine ⟨t, h5, ?_⟩
    rcases r.move t with ⟨h9, _⟩ | ⟨a', o', h9, h10⟩
    · rw [h6] at h9; cases h9
    · rw [h6] at h9; cases h9
      obtain ⟨-, -, z, hz, h11⟩ := step_inv h10
      rw [h11]
      subst h7
      dsimp only
      rw [upd_same]
      rw [h8] at hz
      cases TcpNode.move_of_step hz with
      | app x e o _ _ he => exact ⟨o, he⟩
  refine ⟨r, ?_, ?_, ?_, h2, h3, g⟩
  · refine ⟨fun n hn => turns n hn 0 0 (by omega), fun n hn l => turns n hn 1 l (by omega),
      fun n hn c => turns n hn 3 c (by omega), fun n hn c => turns n hn 4 c (by omega),
      fun n hn c => turns n hn 5 c (by omega), fun n hn c => turns n hn 6 c (by omega),
      fun n hn k hk => ?_, arrives⟩
    obtain ⟨t, h5, a, o, s', ⟨rfl, h6⟩, h7⟩ := hk tr.length
    obtain ⟨-, -, z, hz, -⟩ := step_inv h7
    rw [h6] at hz
    cases TcpNode.move_of_step hz with
    | app x e o _ _ he => simp [Ep.step, Ep.stubStep, idle t h5 _ k] at he
  · intro n
    have hc := fun t i => (Ep.caps (TcpNode.part (each (r.exec t) n))).iface i
    by_cases hn : own n = true
    · exact ⟨fun k => Ep.stub_room hc (fun t ht => idle t ht n k)
          (does nofun nofun nofun (fun hn => turns n hn 7 k (by omega)) hn),
        fun p => Ep.proxy_room hc (does nofun nofun nofun (fun hn => turns n hn 8 p (by omega)) hn)⟩
    · have h5 : ∀ t, (r.state t).nodes n = TcpNode.init := by
        intro t
        induction t with
        | zero => rw [r.start]; rfl
        | succ t ih =>
          rcases r.move t with ⟨_, h6⟩ | ⟨a, o, h5, h6⟩
          · rw [h6]; exact ih
          · obtain ⟨h7, -, z, -, h8⟩ := step_inv h6
            rw [h8]
            dsimp only
            rw [upd_ne _ _ (fun h => hn (by rw [h]; exact h7))]
            exact ih
      exact ⟨fun k N => ⟨N, Nat.le_refl _, fun h => by rw [h5] at h; cases h⟩,
        fun k N => ⟨N, Nat.le_refl _, fun h => by rw [h5] at h; cases h⟩⟩
  · refine fun n => ⟨tr.length, fun t ht => ?_⟩
    rintro ⟨a, o, h5, rfl, ⟨i, j, h6⟩ | ⟨b, c, h6⟩⟩
    · rcases g t _ ht h5 with h7 | ⟨_, _, _, h7⟩ | ⟨_, _, _, _, h7, _⟩
      · dsimp only at h7
        rw [h6] at h7; exact h7
      · rw [h6] at h7; cases h7
      · rw [h6] at h7; cases h7
    · rcases g t _ ht h5 with h7 | ⟨_, _, _, h7⟩ | ⟨_, _, _, _, h7, _⟩
      · dsimp only at h7
        rw [h6] at h7; exact h7
      · rw [h6] at h7; cases h7
      · rw [h6] at h7; cases h7

end Rsomeip.Rt.TcpNet
