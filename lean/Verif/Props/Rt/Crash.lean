import Verif.Lemmas.Crash
import Verif.Props.Rt.LiveHandle

/-! # C139, C140: programs that crash and are started again -/

namespace Rsomeip

section
open Rt Rt.Crash Spec Spec.Crash
open Spec.Net (SentTo Returns two dialogue answerA acceptedFor once talk)
open Spec.Node (app arrivals out outTo returned)

variable {own : Addr → Bool}

/-- **C139.** Programs on a UDP network that may crash at any point and be started again: a message that a stub
or proxy of the program at `n` returns as coming from the program at `a` was sent to `n` by that program, in
this life or in one before it. All fields and the payload are the same on the wire, and if the message was
normal, it is the same message. -/
theorem C139_sent {tr : Crash.Trace} {s : Net.State} {n a : Addr} {x : Node.Action} {o : Node.Obs} {m : Msg}
    (e : Exec (step own) Net.init (tr ++ [(.net (n, x), o)]) s) (h : Returns (app (life n tr)) x o m a)
    (ha : own a = true) :
    ∃ L ∈ lives a tr, ∃ m₀, SentTo (app L) n m₀ ∧ frame m = frame m₀ ∧ (Normal m₀ → m = m₀) := by
  obtain ⟨s1, e1, _⟩ := e.last
  have en := living e n
  rw [life, story_here] at en
  obtain ⟨b, hb, ms, hf, hm⟩ := returns_arrived en h
  obtain ⟨p, rfl, L, hL, hp⟩ := Crash.arrived_sent e1 ha hb
  obtain ⟨t, ht⟩ := lived e1 a L hL
  obtain ⟨m₀, h1, rfl, h2⟩ := Node.out_sent ht hp
  rw [List.take_of_length_le h2] at hf
  obtain ⟨h3, h4, h5⟩ := Net.sent_contents hf hm
  exact ⟨L, hL, m₀, h1, h3, fun hn => (Net.frame_inj hn h4 h5 h3.symm).symm⟩

theorem subperm_flatMap {α β : Type} [DecidableEq β] {f g : α → List β} : ∀ {l : List α},
    (∀ x ∈ l, (f x).Subperm (g x)) → (l.flatMap f).Subperm (l.flatMap g)
  | [], _ => List.Subperm.refl _
  | x :: l, h => by
    rw [List.flatMap_cons, List.flatMap_cons]
    exact (h x (List.mem_cons_self ..)).append (subperm_flatMap fun y hy => h y (List.mem_cons_of_mem _ hy))

theorem count_flatMap_le {α β γ : Type} [BEq β] [BEq γ] {f : α → List β} {g : α → List γ} {b : β} {c : γ} :
    ∀ {l : List α}, (∀ x ∈ l, (f x).count b ≤ (g x).count c) → (l.flatMap f).count b ≤ (l.flatMap g).count c
  | [], _ => by simp
  | x :: l, h => by
    rw [List.flatMap_cons, List.flatMap_cons, List.count_append, List.count_append]
    exact Nat.add_le_add (h x (List.mem_cons_self ..))
      (count_flatMap_le fun y hy => h y (List.mem_cons_of_mem _ hy))

/-- **C139.** If the network repeats nothing from `a` to `b`, then what `send` and `send_to` have accepted `k`
times at `a` for `b`, in all lives of the program there, all stubs and proxies at `b` together return at most
`k` times as coming from `a`, in all lives of the program there. No crash makes a message come twice. -/
theorem C139_once {tr : Crash.Trace} {s : Net.State} (e : Exec (step own) Net.init tr s) {a b : Addr}
    (hr : Crash.NoRepeats tr a b) (hn : ∀ m ∈ whole (fun L => acceptedFor b (app L)) a tr, Normal m) (m : Msg) :
    (whole (fun L => returned (app L)) b tr).count (m, a) ≤
      (whole (fun L => acceptedFor b (app L)) a tr).count m := by
  have h1 : (whole (fun L => returned (app L)) b tr).count (m, a) ≤
      (whole (fun L => (arrivals a L).flatMap Spec.Ep.contents) b tr).count m :=
    count_flatMap_le fun L hL => by
      obtain ⟨t, ht⟩ := lived e b L hL
      exact C82_once ht m a
  have h2 : whole (fun L => (arrivals a L).flatMap Spec.Ep.contents) b tr =
      (whole (arrivals a) b tr).flatMap Spec.Ep.contents := by
    simp only [whole, List.flatMap_assoc]
  rw [h2] at h1
  have h3 : (whole (arrivals a) b tr).Subperm (whole (outTo b) a tr) := List.subperm_ext_iff.mpr fun p _ => hr p
  have h4 : (whole (outTo b) a tr).Subperm
      (whole (fun L => (acceptedFor b (app L)).map Spec.Ep.wireForm) a tr) :=
    subperm_flatMap fun L hL => by
      obtain ⟨t, ht⟩ := lived e a L hL
      exact outTo_accepted ht b
  have h5 : whole (fun L => (acceptedFor b (app L)).map Spec.Ep.wireForm) a tr =
      (whole (fun L => acceptedFor b (app L)) a tr).map Spec.Ep.wireForm := by
    simp only [whole, List.map_flatMap]
  rw [h5] at h4
  exact Nat.le_trans h1 (contents_accepted (h3.trans h4) hn m)

end

section
open Rt Rt.Crash Spec Spec.Crash Spec.Ep Someip
open Spec.Node (SendStep Mishap CutOff app socket)

variable {own : Addr → Bool} {r : Crash.Run own}

/-- **C139.** Programs may crash again and again before time `T`, but those at `a` and `n` do not afterwards. A
message that the program at `a` sends to `n` after that, on a connection it may have had for long, is returned
by the stub that serves its interface in the present life of the program at `n`, as message from `a`. This asks
for the same as C133: nobody is passed over, the network loses nothing from then on, the user of the stub calls
`recv_from` again and again; and there are the same exceptions. -/
theorem C139_request {a n : Addr} {c T t k i : Nat} {id : InterfaceId} {m : Msg} {x : Rt.Ep.Action} {o : Node.Obs}
    (ha : own a = true) (hn : own n = true) (sa : Stays r a T) (sn : Stays r n T) (hT : T ≤ t)
    (hs : r.FairTo (At a (SendStep c))) (hf : Fair r n) (hr : Read r n) (hb : Settles r n) (hw : Carries r a n T)
    (hg : r.FairTo (At n (· = .app (.stubRecv k)))) (hc : Shown (app (life a (r.hist t))) (.opened c n))
    (hk : Shown (app (life n (r.hist t))) (.serving k i id)) (h : r.act t = some (.net (a, .app x), o))
    (ho : o.ep = some (.accepted c m)) (hl : 16 + m.payload.length ≤ 1400) (hm : Normal m) (hi : For m id) :
    ∃ u, t ≤ u ∧ (ConnOver c (app (life a (r.hist u))) ∨ (.failure, .none) ∈ socket (life n (r.hist u)) ∨
      Mishap a (frame m) (socket (life n (r.hist t))) (socket (life n (r.hist u))) ∨
      (.dropStub k, .none) ∈ app (life n (r.hist u)) ∨
      ∃ q, stubGot k (app (life n (r.hist u))) = stubGot k (app (life n (r.hist t))) ++ q ∧ (m, a) ∈ q) := by
  obtain ⟨U, hU, ba⟩ := begins sa
  obtain ⟨V, hV, bn⟩ := begins sn
  have qa : ∀ u, t ≤ u → life a (r.hist u) = (nodeRun r ba).hist u := fun u hu => (nodeRun_hist ba (by omega)).symm
  have qn : ∀ u, t ≤ u → life n (r.hist u) = (nodeRun r bn).hist u := fun u hu => (nodeRun_hist bn (by omega)).symm
  rw [qa t (Nat.le_refl _)] at hc
  rw [qn t (Nat.le_refl _)] at hk
  obtain ⟨u, h1, h2 | h2 | h2 | ⟨c', q, h2, h3, m', h4, -, h5⟩⟩ :=
    pair_delivered (x := x) (node_fair ba ha (by rintro a p (h | ⟨ok, h⟩) <;> cases h) hs) (fair_node bn hf hn)
      (read_node bn hr) (settles_node bn hb) (fun v c o p hv => Rt.Crash.pair_carries ba bn hV hw v c o p (by omega)) hc
      ((nodeRun_act ba (by omega)).mpr h) ho hl
  · exact ⟨u, h1, .inl (by rw [qa u h1]; exact h2)⟩
  · exact ⟨u, h1, .inr (.inl (by rw [qn u h1]; exact h2))⟩
  · exact ⟨u, h1, .inr (.inr (.inl (by rw [qn u h1, qn t (Nat.le_refl _)]; exact h2)))⟩
  · rw [h5 hm] at h4
    obtain ⟨v, h6, h7⟩ := settled_returned (fair_node bn hf hn) (read_node bn hr) (settles_node bn hb)
      (node_fair bn hn (by rintro a p h; cases h) hg) hk hi h1 h2 h3 h4
    rw [qn t (Nat.le_refl _)]
    refine ⟨v, h6, ?_⟩
    rw [qn v h6]
    rcases h7 with h7 | h7 | h7
    · exact .inr (.inr (.inr (.inl h7)))
    · exact .inr (.inl h7)
    · exact .inr (.inr (.inr (.inr h7)))

/-- **C139.** In the same way the proxies of the program at `n`, made before or after the last crash of the
program at `a`, return what that program sends to `n`; with the exceptions of C133. -/
theorem C139_reply {a n : Addr} {c T t p i : Nat} {id : InterfaceId} {m : Msg} {x : Rt.Ep.Action} {o : Node.Obs}
    (ha : own a = true) (hn : own n = true) (sa : Stays r a T) (sn : Stays r n T) (hT : T ≤ t)
    (hs : r.FairTo (At a (SendStep c))) (hf : Fair r n) (hr : Read r n) (hb : Settles r n) (hw : Carries r a n T)
    (hg : r.FairTo (At n (· = .app (.proxyRecv p)))) (hc : Shown (app (life a (r.hist t))) (.opened c n))
    (hp : Shown (app (life n (r.hist t))) (.proxying p i id a)) (h : r.act t = some (.net (a, .app x), o))
    (ho : o.ep = some (.accepted c m)) (hl : 16 + m.payload.length ≤ 1400) (hm : Normal m) (hi : For m id) :
    ∃ u, t ≤ u ∧ (ConnOver c (app (life a (r.hist u))) ∨ (.failure, .none) ∈ socket (life n (r.hist u)) ∨
      Mishap a (frame m) (socket (life n (r.hist t))) (socket (life n (r.hist u))) ∨
      (.dropProxy p, .none) ∈ app (life n (r.hist u)) ∨
      CutOff (life n (r.hist u)) p a ∨
      ∃ q, proxyGot p (app (life n (r.hist u))) = proxyGot p (app (life n (r.hist t))) ++ q ∧ m ∈ q) := by
  obtain ⟨U, hU, ba⟩ := begins sa
  obtain ⟨V, hV, bn⟩ := begins sn
  have qa : ∀ u, t ≤ u → life a (r.hist u) = (nodeRun r ba).hist u := fun u hu => (nodeRun_hist ba (by omega)).symm
  have qn : ∀ u, t ≤ u → life n (r.hist u) = (nodeRun r bn).hist u := fun u hu => (nodeRun_hist bn (by omega)).symm
  rw [qa t (Nat.le_refl _)] at hc
  rw [qn t (Nat.le_refl _)] at hp
  obtain ⟨u, h1, h2 | h2 | h2 | ⟨c', q, h2, h3, m', h4, -, h5⟩⟩ :=
    pair_delivered (x := x) (node_fair ba ha (by rintro a p (h | ⟨ok, h⟩) <;> cases h) hs) (fair_node bn hf hn)
      (read_node bn hr) (settles_node bn hb) (fun v c o p hv => Rt.Crash.pair_carries ba bn hV hw v c o p (by omega)) hc
      ((nodeRun_act ba (by omega)).mpr h) ho hl
  · exact ⟨u, h1, .inl (by rw [qa u h1]; exact h2)⟩
  · exact ⟨u, h1, .inr (.inl (by rw [qn u h1]; exact h2))⟩
  · exact ⟨u, h1, .inr (.inr (.inl (by rw [qn u h1, qn t (Nat.le_refl _)]; exact h2)))⟩
  · rw [h5 hm] at h4
    obtain ⟨v, h6, h7⟩ := settled_replied (node_fair bn hn (by rintro a p h; cases h) hg) hp hi h1 h2 h3 h4
    rw [qn t (Nat.le_refl _)]
    refine ⟨v, h6, ?_⟩
    rw [qn v h6]
    exact .inr (.inr (.inr h7))

end

/-! ### A run with a crash -/

section
open Rt Rt.Crash Spec Spec.Crash Spec.Ep
open Spec.Net (two dialogue answerA talk once allArrive acceptedFor SentTo Returns)
open Spec.Node (app socket arrivals out outTo returned)

variable {own : Addr → Bool}

/-- The program at 5 has a proxy for the one at 6, which serves an interface; a request is answered. The
program at 6 crashes and serves the interface again. The program at 5 uses its proxy again. -/
def Spec.Crash.again : List Action :=
  talk.map .net ++ [.crash 6] ++ (dialogue.take 7).map .net ++ (talk.drop 15).map .net

/-- The steps of the programs. -/
def Spec.Crash.nets (tr : Crash.Trace) : Spec.Net.Trace := tr.filterMap fun e => match e.1 with
  | .net x => some (x, e.2)
  | .crash _ => none

theorem crash_rests {tr : Crash.Trace} {s : Net.State} (e : Exec (step own) Net.init tr s)
    (h1 : ∀ n, own n = true → Node.Rests (s.nodes n)) :
    ∃ r : Crash.Run own, (∀ n, own n = true → Fair r n) ∧ (∀ n, Settles r n) ∧
      (∀ n, own n = true → ∀ P : Node.Action → Prop, (∀ x, P x → Node.step (s.nodes n) x = none) →
        r.FairTo (At n P)) ∧
      ∀ t, tr.length ≤ t → r.state t = s ∧ r.hist t = tr ∧ r.act t = none := by
  obtain ⟨r, hr⟩ := Endless.of_exec e
  have key : ∀ n, own n = true → ∀ P : Node.Action → Prop, (∀ x, P x → Node.step (s.nodes n) x = none) →
      r.FairTo (At n P) := by
    intro n hn P hP hio
    obtain ⟨t, ht, x, o, s', ⟨y, rfl, h2⟩, h3⟩ := hio tr.length
    rw [(hr t ht).1] at h3
    have := hP y h2
    simp [step, Net.step, this] at h3
  refine ⟨r, fun n hn => ?_, fun n => ⟨tr.length, ?_⟩, key, hr⟩
  · have h := h1 n hn
    refine ⟨key n hn _ ?_, fun l => key n hn _ ?_, fun l => key n hn _ ?_, fun l => key n hn _ ?_,
      fun l => key n hn _ ?_, fun l => key n hn _ ?_, fun l => key n hn _ ?_, fun l => key n hn _ ?_,
      key n hn _ ?_⟩
    · rintro x ⟨ok, rfl⟩; exact h _ rfl
    · rintro x rfl; exact h _ rfl
    · rintro x ⟨a, rfl⟩; exact h _ rfl
    · rintro x rfl; exact h _ rfl
    · rintro x rfl; exact h _ rfl
    · rintro x ⟨p, rfl⟩; exact h _ rfl
    · rintro x (rfl | ⟨ok, rfl⟩) <;> exact h _ rfl
    · rintro x rfl; exact h _ rfl
    · rintro x rfl; exact h _ rfl
  · rintro t ht ⟨a, o, h7, _⟩
    rw [(hr t ht).2.2] at h7
    cases h7

theorem crash_carries {r : Crash.Run own} {tr : Crash.Trace} {s : Net.State} {a n : Addr}
    (r3 : ∀ t, tr.length ≤ t → r.state t = s ∧ r.hist t = tr ∧ r.act t = none)
    (g3 : allArrive a n (nets tr) = true) (T : Nat) : Carries r a n T := by
  intro t c o p _ h1 h2
  obtain ⟨v, h3, -, h4⟩ := r.segment_acts (show t + 1 ≤ max (t + 1) tr.length by omega)
  rw [(r3 _ (Nat.le_max_right ..)).2.1, r.hist_succ, h1, Option.toList_some, List.append_assoc] at h3
  rw [h3, show nets (r.hist t ++ ([(.net (a, .app (.sent c true)), o)] ++ v)) =
    nets (r.hist t) ++ ((a, .app (.sent c true)), o) :: nets v by simp [nets]] at g3
  obtain ⟨o', h5⟩ := allArrive_at g3 p h2
  obtain ⟨⟨y, w⟩, h6, h7⟩ := List.mem_filterMap.mp h5
  cases y with
  | net y =>
    cases h7
    obtain ⟨t₁, t₂, h6⟩ := List.append_of_mem h6
    obtain ⟨j, h7, h8, -⟩ := h4 _ _ _ h6
    exact ⟨j, by omega, .inl ⟨_, h8⟩⟩
  | crash m => cases h7

theorem crash_act {r : Crash.Run own} {tr : Crash.Trace} {i : Nat} {x : Action × Node.Obs}
    (r3 : r.hist tr.length = tr) (g6 : tr[i]? = some x) :
    ∃ j, r.hist j = tr.take i ∧ r.act j = some x := by
  obtain ⟨v, h3, -, h4⟩ := r.segment_acts (Nat.zero_le tr.length)
  rw [r3] at h3
  have h0 : r.hist 0 = [] := rfl
  rw [h0, List.nil_append] at h3
  subst h3
  obtain ⟨hlt, h5⟩ := List.getElem?_eq_some_iff.mp g6
  have h6 : tr = tr.take i ++ tr[i] :: tr.drop (i + 1) := by
    rw [List.getElem_cons_drop, List.take_append_drop]
  obtain ⟨j, -, h7, h8⟩ := h4 _ _ _ h6
  exact ⟨j, by rw [h8, h0, List.nil_append], by rw [h7, h5]⟩

theorem crash_stays {r : Crash.Run own} {tr : Crash.Trace} {s : Net.State} {i j : Nat} {n : Addr}
    (r3 : ∀ t, tr.length ≤ t → r.state t = s ∧ r.hist t = tr ∧ r.act t = none) (hj : r.hist j = tr.take i)
    (h : ∀ x ∈ tr.drop i, x.1 ≠ .crash n) : Stays r n j := by
  rintro t ht ⟨a, o, h1, rfl⟩
  obtain ⟨v, h2, -⟩ := r.segment ht
  obtain ⟨w, h3, -⟩ := r.segment (show t + 1 ≤ max (t + 1) tr.length by omega)
  rw [(r3 _ (Nat.le_max_right ..)).2.1, r.hist_succ, h1, h2, hj, Option.toList_some, List.append_assoc,
    List.append_assoc] at h3
  have h4 : tr.drop i = v ++ ([(.crash n, o)] ++ w) := by
    refine List.append_cancel_left (as := tr.take i) ?_
    rw [List.take_append_drop]
    exact h3
  exact h (.crash n, o) (by rw [h4]; simp) rfl

/-- A run as C139 asks for: the program at 6 has crashed; the proxy at 5, made before that, is used for a
request; the stub of the new program at 6 returns it and answers; the proxy returns the answer. -/
theorem crash_again : ∃ r : Crash.Run two, (∀ n, two n = true → Fair r n ∧ Read r n ∧ Settles r n) ∧
    (∀ T, Carries r 5 6 T ∧ Carries r 6 5 T) ∧
    (∀ n, two n = true → (∀ k, r.FairTo (At n (· = .app (.stubRecv k)))) ∧
      (∀ p, r.FairTo (At n (· = .app (.proxyRecv p))))) ∧
    (∃ t o, Stays r 5 t ∧ Stays r 6 t ∧ (∃ u, u < t ∧ r.Does u (· = .crash 6)) ∧
      Shown (app (life 5 (r.hist t))) (.opened 0 6) ∧ Shown (app (life 6 (r.hist t))) (.serving 0 0 ⟨1, 1⟩) ∧
      r.act t = some (.net (5, .app (.proxySend 0 Ep.msgA)), o) ∧ o.ep = some (.accepted 0 Ep.msgA) ∧
      stubGot 0 (app (life 6 (r.hist t))) = []) ∧
    (∃ t o, Stays r 5 t ∧ Stays r 6 t ∧ Shown (app (life 6 (r.hist t))) (.opened 0 5) ∧
      Shown (app (life 5 (r.hist t))) (.proxying 0 0 ⟨1, 1⟩ 6) ∧
      r.act t = some (.net (6, .app (.stubStep 0)), o) ∧ o.ep = some (.accepted 0 answerA) ∧
      proxyGot 0 (app (life 5 (r.hist t))) = [answerA]) ∧
    (Normal Ep.msgA ∧ For Ep.msgA ⟨1, 1⟩ ∧ Normal answerA ∧ For answerA ⟨1, 1⟩) ∧
    ∃ t, stubGot 0 (app (life 6 (r.hist t))) = [(Ep.msgA, 5)] ∧
      proxyGot 0 (app (life 5 (r.hist t))) = [answerA, answerA] := by
  obtain ⟨tr, s, e, h⟩ := exec_by (step := step two) (s := Net.init) again
    (fun (tr : Crash.Trace) s => calmNode (s.nodes 5) && calmNode (s.nodes 6) && allArrive 5 6 (nets tr) &&
      allArrive 6 5 (nets tr) && decide (
      (∀ n ∈ ([5, 6] : List Addr), (∀ k, k < (s.nodes n).ep.stubCount →
        ((s.nodes n).ep.ifaces ((s.nodes n).ep.stubs k).iface).queue.length < 16) ∧
        ∀ k, k < (s.nodes n).ep.proxyCount →
        ((s.nodes n).ep.ifaces ((s.nodes n).ep.proxies k).iface).queue.length < 16) ∧
      tr[44]? = some (Action.crash 6, (⟨none, [], []⟩ : Node.Obs)) ∧
      tr[52]? = some (Action.net (5, .app (.proxySend 0 Ep.msgA)),
        (⟨some (.accepted 0 Ep.msgA), [], []⟩ : Node.Obs)) ∧
      tr[70]? = some (Action.net (6, .app (.stubStep 0)),
        (⟨some (.accepted 0 answerA), [], []⟩ : Node.Obs)) ∧
      (tr.drop 52).all (fun x => decide (x.1 ≠ .crash 5) && decide (x.1 ≠ .crash 6)) = true) && decide (
      (app (life 5 (tr.take 52))).any (fun x => decide (x.2 = .opened 0 6)) = true ∧
      (app (life 6 (tr.take 52))).any (fun x => decide (x.2 = .serving 0 0 ⟨1, 1⟩)) = true ∧
      stubGot 0 (app (life 6 (tr.take 52))) = [] ∧
      (app (life 6 (tr.take 70))).any (fun x => decide (x.2 = .opened 0 5)) = true ∧
      (app (life 5 (tr.take 70))).any (fun x => decide (x.2 = .proxying 0 0 ⟨1, 1⟩ 6)) = true ∧
      proxyGot 0 (app (life 5 (tr.take 70))) = [answerA] ∧
      stubGot 0 (app (life 6 tr)) = [(Ep.msgA, 5)] ∧ proxyGot 0 (app (life 5 tr)) = [answerA, answerA]))
    (by decide +kernel)
  simp only [Bool.and_eq_true, decide_eq_true_eq] at h
  obtain ⟨⟨⟨⟨⟨g1, g2⟩, g3⟩, g4⟩, g5, g0, g6, g7, g16⟩, g8, g9, g10, g11, g12, g13, g14, g15⟩ := h
  have hg := fun n => (Rt.Ep.good_hist (Node.parts (living e n)).1).1
  have k5 := calm_still (hg 5) g1
  have k6 := calm_still (hg 6) g2
  have hown : ∀ n, two n = true → n = 5 ∨ n = 6 := fun n hn => by
    simpa only [two, Bool.or_eq_true, decide_eq_true_eq] using hn
  obtain ⟨r, r1, r2, r4, r3⟩ := crash_rests e (fun n hn => by
    rcases hown n hn with rfl | rfl
    · exact k5.1
    · exact k6.1)
  have shown : ∀ {tr : Spec.Ep.Trace} {w : Rt.Ep.Obs}, tr.any (fun x => decide (x.2 = w)) = true → Shown tr w := by
    intro tr w h
    obtain ⟨⟨y, w'⟩, h9, h10⟩ := List.any_eq_true.mp h
    simp only [decide_eq_true_eq] at h10
    exact ⟨y, by rw [← h10]; exact h9⟩
  have r5 := (r3 _ (Nat.le_refl _)).2.1
  have stay : ∀ n j i, (n = 5 ∨ n = 6) → 52 ≤ i → r.hist j = tr.take i → Stays r n j := by
    intro n j i hn hi hj
    refine crash_stays r3 hj fun x hx => ?_
    have h1 := List.all_eq_true.mp g16 x ((List.drop_subset_drop_left tr hi) hx)
    simp only [Bool.and_eq_true, decide_eq_true_eq] at h1
    rcases hn with rfl | rfl
    · exact h1.1
    · exact h1.2
  refine ⟨r, fun n hn => ⟨r1 n hn, ⟨fun k N => ⟨max N tr.length, Nat.le_max_left .., ?_⟩,
    fun p N => ⟨max N tr.length, Nat.le_max_left .., ?_⟩⟩, r2 n⟩,
    fun T => ⟨crash_carries r3 g3 T, crash_carries r3 g4 T⟩,
    fun n hn => ⟨fun k => r4 n hn _ ?_, fun p => r4 n hn _ ?_⟩,
    ?_, ?_, by unfold Normal For; decide,
    tr.length, by rw [r5]; exact ⟨g14, g15⟩⟩
  · rw [(r3 _ (Nat.le_max_right ..)).1]
    exact fun hk => (g5 n (by rcases hown n hn with rfl | rfl <;> simp)).1 k (Rt.Ep.stub_lt (hg n).fresh hk)
  · rw [(r3 _ (Nat.le_max_right ..)).1]
    exact fun hk => (g5 n (by rcases hown n hn with rfl | rfl <;> simp)).2 p (Rt.Ep.proxy_lt (hg n).fresh hk)
  · rintro x rfl
    rcases hown n hn with rfl | rfl
    · exact k5.2.1 k
    · exact k6.2.1 k
  · rintro x rfl
    rcases hown n hn with rfl | rfl
    · exact k5.2.2 p
    · exact k6.2.2 p
  · obtain ⟨j, h7, h8⟩ := crash_act r5 g6
    obtain ⟨j0, h9, h10⟩ := crash_act r5 g0
    refine ⟨j, _, stay 5 j 52 (.inl rfl) (Nat.le_refl _) h7, stay 6 j 52 (.inr rfl) (Nat.le_refl _) h7,
      ⟨j0, ?_, _, _, h10, rfl⟩, by rw [h7]; exact shown g8, by rw [h7]; exact shown g9, h8, rfl,
      by rw [h7]; exact g10⟩
    exact Nat.lt_of_not_le fun hle => stay 6 j 52 (.inr rfl) (Nat.le_refl _) h7 j0 hle ⟨_, _, h10, rfl⟩
  · obtain ⟨j, h7, h8⟩ := crash_act r5 g7
    exact ⟨j, _, stay 5 j 70 (.inl rfl) (by omega) h7, stay 6 j 70 (.inr rfl) (by omega) h7,
      by rw [h7]; exact shown g11, by rw [h7]; exact shown g12, h8, rfl, by rw [h7]; exact g13⟩

/-- A message that the stub at 6 returns in its second life was sent at 5; and one that the proxy at 5 returns
was sent at 6. -/
example : (∃ tr s o, Exec (step two) Net.init (tr ++ [(.net (6, .app (.stubRecv 0)), o)]) s ∧
      (lives 6 tr).length = 2 ∧ Returns (app (life 6 tr)) (.app (.stubRecv 0)) o Ep.msgA 5) ∧
    ∃ tr s o, Exec (step two) Net.init (tr ++ [(.net (5, .app (.proxyRecv 0)), o)]) s ∧
      (lives 6 tr).length = 2 ∧ Returns (app (life 5 tr)) (.app (.proxyRecv 0)) o answerA 6 := by
  constructor
  · obtain ⟨tr, s, e, h⟩ := exec_by (step := step two) (s := Net.init) (again.take 66)
      (fun (tr : Crash.Trace) s => decide ((lives 6 tr).length = 2 ∧
        ((step two s (.net (6, .app (.stubRecv 0)))).map fun x => x.2) =
        some (⟨some (.message Ep.msgA 5), [], []⟩ : Node.Obs)))
      (by decide +kernel)
    obtain ⟨h1, h2⟩ := of_decide_eq_true h
    obtain ⟨⟨s', o⟩, h3, h4⟩ := Option.map_eq_some_iff.mp h2
    dsimp only at h4
    subst h4
    exact ⟨tr, s', _, e.snoc h3, h1, .stub 0 _ 5 _ _⟩
  · obtain ⟨tr, s, e, h⟩ := exec_by (step := step two) (s := Net.init) (again.take 80)
      (fun (tr : Crash.Trace) s => decide ((lives 6 tr).length = 2 ∧
        ((step two s (.net (5, .app (.proxyRecv 0)))).map fun x => x.2) =
        some (⟨some (.reply answerA), [], []⟩ : Node.Obs) ∧
        (.ep true, .proxying 0 0 ⟨1, 1⟩ 6) ∈ app (life 5 tr)))
      (by decide +kernel)
    obtain ⟨h1, h2, h5⟩ := of_decide_eq_true h
    obtain ⟨⟨s', o⟩, h3, h4⟩ := Option.map_eq_some_iff.mp h2
    dsimp only at h4
    subst h4
    exact ⟨tr, s', _, e.snoc h3, h1, .proxy 0 0 ⟨1, 1⟩ _ 6 _ _ ⟨_, h5⟩⟩

/-- The network repeats nothing and all messages are normal; the message is accepted twice and returned twice,
once in each life. -/
example : ∃ tr s, Exec (step two) Net.init tr s ∧ (lives 6 tr).length = 2 ∧ Crash.NoRepeats tr 5 6 ∧
    (∀ m ∈ whole (fun L => acceptedFor 6 (app L)) 5 tr, Normal m) ∧
    (whole (fun L => returned (app L)) 6 tr).count (Ep.msgA, 5) = 2 ∧
    (whole (fun L => acceptedFor 6 (app L)) 5 tr).count Ep.msgA = 2 := by
  obtain ⟨tr, s, e, h⟩ := exec_by (step := step two) (s := Net.init) again
    (fun tr s => (lives 6 tr).length = 2 ∧ whole (arrivals 5) 6 tr = whole (outTo 6) 5 tr ∧
        whole (fun L => acceptedFor 6 (app L)) 5 tr = [Ep.msgA, Ep.msgA] ∧
        (whole (fun L => returned (app L)) 6 tr).count (Ep.msgA, 5) = 2)
    (by decide +kernel)
  obtain ⟨h0, h1, h2, h3⟩ := of_decide_eq_true h
  refine ⟨tr, s, e, h0, fun p => by rw [h1], fun m hm => ?_, h3, by rw [h2]; decide⟩
  rw [h2] at hm
  have : m = Ep.msgA := by simpa using hm
  subst this
  exact ⟨by decide, by decide⟩

/-! ### What was meant for the program that has crashed -/

/-- The steps at `n`. -/
theorem life_after {n : Addr} {t : Crash.Trace} {o : Node.Obs} : ∀ {u : Crash.Trace},
    (∀ x ∈ u, x.1 ≠ .crash n) → life n (t ++ (.crash n, o) :: u) = Spec.Net.at_ n (nets u) := by
  intro u
  induction u using List.reverseRecOn with
  | nil => intro _; rw [life, story_crash]; rfl
  | append_singleton u x ih =>
    intro h
    obtain ⟨x, w⟩ := x
    have ih := ih fun y hy => h y (List.mem_append_left _ hy)
    have h0 : t ++ (.crash n, o) :: (u ++ [(x, w)]) = (t ++ (.crash n, o) :: u) ++ [(x, w)] := by simp
    unfold life at ih ⊢
    rw [h0]
    cases x with
    | net y =>
      obtain ⟨y, z⟩ := y
      rw [show nets (u ++ [(.net (y, z), w)]) = nets u ++ [((y, z), w)] by simp [nets], Net.at_snoc]
      by_cases hy : y = n
      · subst hy
        rw [story_here, if_pos rfl, ← ih]
      · rw [story_there _ _ _ hy, if_neg hy, ih, List.append_nil]
    | crash m =>
      rw [story_other _ _ _ fun hm => h (.crash m, w) (by simp) (by rw [hm]), ih]
      simp [nets]

/-- A step of a program is in one of its lives. -/
theorem in_a_life {a : Addr} {y : Node.Action} {o : Node.Obs} : ∀ {tr : Crash.Trace},
    (.net (a, y), o) ∈ tr → ∃ L ∈ lives a tr, (y, o) ∈ L := by
  intro tr
  induction tr using List.reverseRecOn with
  | nil => intro h; cases h
  | append_singleton tr x ih =>
    intro h
    obtain ⟨x, w⟩ := x
    rw [List.mem_append, List.mem_singleton] at h
    rcases h with h | h
    · obtain ⟨L, h1, h2⟩ := ih h
      rw [lives, List.mem_append, List.mem_singleton] at h1
      cases x with
      | net z =>
        obtain ⟨z, v⟩ := z
        by_cases hz : z = a
        · subst hz
          rw [lives, story_here]
          rcases h1 with h1 | rfl
          · exact ⟨L, List.mem_append_left _ h1, h2⟩
          · exact ⟨_, List.mem_append_right _ (List.mem_singleton.mpr rfl), List.mem_append_left _ h2⟩
        · rw [lives, story_there _ _ _ hz]
          exact ⟨L, by simpa using h1, h2⟩
      | crash m =>
        by_cases hm : m = a
        · subst hm
          rw [lives, story_crash]
          exact ⟨L, List.mem_append_left _ (by simpa using h1), h2⟩
        · rw [lives, story_other _ _ _ hm]
          exact ⟨L, by simpa using h1, h2⟩
    · cases h
      rw [lives, story_here]
      exact ⟨_, List.mem_append_right _ (List.mem_singleton.mpr rfl), by simp⟩

/-- Nothing arrives at `n` from `a` but what was sent in this part of the history. -/
def Spec.Crash.Fresh (u : Crash.Trace) (a n : Addr) : Prop :=
  ∀ u₁ p o u₂, u = u₁ ++ (.net (n, .datagram a p), o) :: u₂ →
    ∃ y w, (.net (a, y), w) ∈ u₁ ∧ (n, p) ∈ w.out

/-- **C140.** If nothing arrives that was sent before the program was started, then a message that a stub or
proxy returns as coming from the program at `a` was handed to the network by that program after this one was
started. What is missing: that the same holds if the network is slow, see `C140_false`. -/
theorem C140_fresh_partial {t u : Crash.Trace} {s : Net.State} {n a : Addr} {x : Node.Action} {o o₀ : Node.Obs}
    {m : Msg} (e : Exec (step own) Net.init (t ++ (.crash n, o₀) :: u ++ [(.net (n, x), o)]) s)
    (hu : ∀ y ∈ u, y.1 ≠ .crash n) (hf : Fresh u a n)
    (h : Returns (app (life n (t ++ (.crash n, o₀) :: u))) x o m a) :
    ∃ y w m₀, (.net (a, y), w) ∈ u ∧ (n, wireForm m₀) ∈ w.out ∧ frame m = frame m₀ ∧
      ∃ L ∈ lives a (t ++ (.crash n, o₀) :: u), SentTo (app L) n m₀ := by
  obtain ⟨s1, e1, _⟩ := e.last
  have en := living e n
  rw [life, story_here] at en
  obtain ⟨b, hb, ms, hf', hm⟩ := returns_arrived en h
  change b ∈ arrivals a (life n _) at hb
  rw [life_after hu] at hb
  simp only [arrivals, List.mem_filterMap, Spec.Net.at_, nets] at hb
  obtain ⟨z, ⟨z1, ⟨z2, h1, h2⟩, h3⟩, h4⟩ := hb
  obtain ⟨z2, w⟩ := z2
  cases z2 with
  | crash k => cases h2
  | net y =>
    cases h2
    dsimp only at h3
    split at h3
    · rename_i hy
      cases h3
      obtain ⟨y, v⟩ := y
      dsimp only at hy h4
      subst hy
      cases v <;> simp only [reduceCtorEq] at h4
      rename_i a' p
      split at h4
      · rename_i ha
        cases h4
        subst ha
        obtain ⟨u₁, u₂, rfl⟩ := List.append_of_mem h1
        obtain ⟨y', w', h5, h6⟩ := hf u₁ p w u₂ rfl
        have h7 : (.net (a', y'), w') ∈ t ++ (.crash y, o₀) :: (u₁ ++ (.net (y, .datagram a' p), w) :: u₂) :=
          List.mem_append_right _ (List.mem_cons_of_mem _ (List.mem_append_left _ h5))
        obtain ⟨L, h8, h9⟩ := in_a_life h7
        obtain ⟨st, hst⟩ := lived e1 a' L h8
        obtain ⟨m₀, g1, rfl, g2⟩ := Node.out_sent hst (a := y) (b := p)
          (List.mem_flatMap.mpr ⟨_, h9, h6⟩)
        rw [List.take_of_length_le g2] at hf'
        exact ⟨y', w', m₀, List.mem_append_left _ h5, h6, (Net.sent_contents hf' hm).1, L, h8, g1⟩
      · cases h4
    · cases h3

/-- What arrives at `n` from `a` was sent in this part of the history. -/
def Spec.Crash.isFresh (a n : Addr) : Crash.Trace → Crash.Trace → Bool
  | _, [] => true
  | done, e :: rest => (match e.1 with
    | .net (k, .datagram b p) => k != n || b != a || done.any fun z => match z.1 with
      | .net y => y.1 == a && z.2.out.contains (n, p)
      | .crash _ => false
    | _ => true) && isFresh a n (done ++ [e]) rest

theorem fresh_of {a n : Addr} : ∀ {rest done : Crash.Trace}, isFresh a n done rest = true →
    ∀ u₁ p o u₂, rest = u₁ ++ (.net (n, .datagram a p), o) :: u₂ →
      ∃ y w, (.net (a, y), w) ∈ done ++ u₁ ∧ (n, p) ∈ w.out
  | [], _, _, u₁, p, o, u₂, h => by simp at h
  | e :: rest, done, hi, u₁, p, o, u₂, h => by
    rw [isFresh, Bool.and_eq_true] at hi
    cases u₁ with
    | nil =>
      cases h
      have h1 := hi.1
      simp only [bne_self_eq_false, Bool.false_or, List.any_eq_true] at h1
      obtain ⟨⟨z, w⟩, h2, h3⟩ := h1
      cases z with
      | crash k => cases h3
      | net y =>
        obtain ⟨y, v⟩ := y
        simp only [Bool.and_eq_true, beq_iff_eq, List.contains_iff_mem] at h3
        obtain ⟨rfl, h3⟩ := h3
        exact ⟨v, w, by simpa using h2, h3⟩
    | cons x u₁ =>
      cases h
      obtain ⟨y, w, h1, h2⟩ := fresh_of hi.2 u₁ p o u₂ rfl
      exact ⟨y, w, by simpa using h1, h2⟩

/-- The program at 5 crashes before it has sent anything, and is started again; its proxy returns the answer to
its request. -/
example : ∃ t u o₀ o s, Exec (step two) Net.init
      (t ++ (.crash 5, o₀) :: u ++ [(.net (5, .app (.proxyRecv 0)), o)]) s ∧
    (∀ y ∈ u, y.1 ≠ .crash 5) ∧ Fresh u 6 5 ∧
    Returns (app (life 5 (t ++ (.crash 5, o₀) :: u))) (.app (.proxyRecv 0)) o answerA 6 := by
  obtain ⟨tr, s, e, h⟩ := exec_by (step := step two) (s := Net.init)
    ((talk.take 15).map .net ++ [.crash 5] ++ ((talk.drop 7).take 36).map .net)
    (fun (tr : Crash.Trace) s => decide (
        ((step two s (.net (5, .app (.proxyRecv 0)))).map fun x => x.2) =
        some (⟨some (.reply answerA), [], []⟩ : Node.Obs) ∧
        (.ep true, .proxying 0 0 ⟨1, 1⟩ 6) ∈ app (life 5 tr) ∧
        tr[15]? = some (Action.crash 5, (⟨none, [], []⟩ : Node.Obs)) ∧
        (tr.drop 16).all (fun x => decide (x.1 ≠ .crash 5)) = true ∧ isFresh 6 5 [] (tr.drop 16) = true))
    (by decide +kernel)
  obtain ⟨h1, h2, h5, h6, h11⟩ := of_decide_eq_true h
  obtain ⟨⟨s', o⟩, h7, h8⟩ := Option.map_eq_some_iff.mp h1
  dsimp only at h8
  subst h8
  obtain ⟨hlt, h9⟩ := List.getElem?_eq_some_iff.mp h5
  have h10 : tr = tr.take 15 ++ (.crash 5, ⟨none, [], []⟩) :: tr.drop 16 := by
    rw [← h9, List.getElem_cons_drop, List.take_append_drop]
  refine ⟨tr.take 15, tr.drop 16, ⟨none, [], []⟩, _, s', by rw [← h10]; exact e.snoc h7, ?_, fresh_of h11, ?_⟩
  · intro y hy
    exact of_decide_eq_true (List.all_eq_true.mp h6 _ hy)
  · rw [← h10]
    exact .proxy 0 0 ⟨1, 1⟩ _ 6 _ _ ⟨_, h2⟩

/-- The program at 5 crashes after the one at 6 has answered its request. It is started again, makes a proxy, and
sends the request once more. -/
def Spec.Crash.stale : List Action :=
  (talk.take 36).map .net ++ [.crash 5] ++ ((dialogue.drop 7).take 9).map .net ++ ((talk.drop 36).take 7).map .net

/-- **C140.** It is not so in general: a program is killed after its request was answered, and started again. It
sends the request again; before anything of that has reached the network, its proxy returns an answer, which was
meant for the former life of the program. The program that has sent it does nothing since then. -/
theorem C140_false : ∃ t u o₀ o s, Exec (step two) Net.init
      (t ++ (.crash 5, o₀) :: u ++ [(.net (5, .app (.proxyRecv 0)), o)]) s ∧
    Returns (app (life 5 (t ++ (.crash 5, o₀) :: u))) (.app (.proxyRecv 0)) o answerA 6 ∧
    (.proxySend 0 Ep.msgA, .accepted 0 Ep.msgA) ∈ app (life 5 (t ++ (.crash 5, o₀) :: u)) ∧
    out (life 5 (t ++ (.crash 5, o₀) :: u)) = [] ∧ (∀ y w, (.net (6, y), w) ∉ u) ∧
    ∀ y ∈ u, y.1 ≠ .crash 5 := by
  obtain ⟨tr, s, e, h⟩ := exec_by (step := step two) (s := Net.init) stale
    (fun (tr : Crash.Trace) s => decide (
        ((step two s (.net (5, .app (.proxyRecv 0)))).map fun x => x.2) =
        some (⟨some (.reply answerA), [], []⟩ : Node.Obs) ∧
        (.ep true, .proxying 0 0 ⟨1, 1⟩ 6) ∈ app (life 5 tr) ∧
        (.proxySend 0 Ep.msgA, .accepted 0 Ep.msgA) ∈ app (life 5 tr) ∧ out (life 5 tr) = [] ∧
        tr[36]? = some (Action.crash 5, (⟨none, [], []⟩ : Node.Obs)) ∧
        (tr.drop 37).all (fun x => decide (x.1 ≠ .crash 5) && match x.1 with
          | .net y => decide (y.1 ≠ 6)
          | .crash _ => true) = true))
    (by decide +kernel)
  obtain ⟨h1, h2, h3, h4, h5, h6⟩ := of_decide_eq_true h
  obtain ⟨⟨s', o⟩, h7, h8⟩ := Option.map_eq_some_iff.mp h1
  dsimp only at h8
  subst h8
  obtain ⟨hlt, h9⟩ := List.getElem?_eq_some_iff.mp h5
  have h10 : tr = tr.take 36 ++ (.crash 5, ⟨none, [], []⟩) :: tr.drop 37 := by
    rw [← h9, List.getElem_cons_drop, List.take_append_drop]
  refine ⟨tr.take 36, tr.drop 37, ⟨none, [], []⟩, _, s', by rw [← h10]; exact e.snoc h7, ?_, ?_, ?_, ?_, ?_⟩
  · rw [← h10]
    exact .proxy 0 0 ⟨1, 1⟩ _ 6 _ _ ⟨_, h2⟩
  · rw [← h10]; exact h3
  · rw [← h10]; exact h4
  · intro y w hy
    have := List.all_eq_true.mp h6 _ hy
    simp at this
  · intro y hy
    have := List.all_eq_true.mp h6 _ hy
    simp only [Bool.and_eq_true, decide_eq_true_eq] at this
    exact this.1

end

end Rsomeip
