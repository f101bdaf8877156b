import Verif.Lemmas.NetAll
import Verif.Props.Rt.Arrive
import Verif.Props.Rt.Net

/-! # C95: what one program sends the other returns, on a network that loses nothing -/

namespace Rsomeip

open Rt Spec Spec.Ep Spec.Node Spec.Net
open Someip (InterfaceId)

/-- Connection `c` is the only one that the program at `a` has opened to `b`, and it is running; the
program has nothing left to do, and what it sends on the connection can be written as it is. -/
structure Spec.Net.Feeds (tr : Spec.Net.Trace) (s : Net.State) (a b : Addr) (c : Nat) : Prop where
  opened : Shown (app (at_ a tr)) (.opened c b)
  sole : ∀ d, Shown (app (at_ a tr)) (.opened d b) → d = c
  running : ¬ ConnOver c (app (at_ a tr))
  rests : Resting (s.nodes a)
  room : Room (s.nodes a)
  sound : ∀ m ∈ accepted c (app (at_ a tr)), Normal m ∧ 8 + m.payload.length < 2 ^ 32

/-- The datagrams from `a` to `b` have arrived, each once and in order. -/
def Spec.Net.Faithful (tr : Spec.Net.Trace) (a b : Addr) : Prop :=
  arrivals a (at_ b tr) = outTo b (at_ a tr)

section
variable {own : Addr → Bool} {tr : Spec.Net.Trace} {s : Net.State}

/-- What arrives is what was accepted. -/
theorem carried (e : Exec (Net.step own) Net.init tr s) {a b : Addr} {c : Nat}
    (hf : Feeds tr s a b c) (hn : Faithful tr a b) :
    (arrivals a (at_ b tr)).flatMap contents = accepted c (app (at_ a tr)) := by
  have ea := (Net.each e).1 a
  have hal := (Ep.conn_open_iff (Node.parts ea).1 c).mpr ⟨⟨b, hf.opened⟩, hf.running⟩
  have h1 := Node.out_to ea hf.sole fun x hx => Node.opened_unique ea hx hf.opened
  rw [List.filter_eq_self.mpr fun p hp => by
    simpa using Node.wire_short ea c hal p hp] at h1
  have hq := quiet ea hf.rests hf.room
  have h2 := (Ep.wire (Node.parts ea).1).alive c hal
  rw [Ep.Conn.todo, hq.out c, (hq.connCmds hal).1] at h2
  have h3 : onWire c (app (at_ a tr)) = (accepted c (app (at_ a tr))).map wireForm := by
    simpa [Ep.messages] using h2
  rw [hn, h1, h3, List.flatMap_map]
  have hs := hf.sound
  generalize accepted c (app (at_ a tr)) = ms at hs
  induction ms with
  | nil => rfl
  | cons m ms ih =>
    rw [List.flatMap_cons, ih fun x hx => hs x (List.mem_cons_of_mem _ hx)]
    obtain ⟨h4, h5⟩ := hs m List.mem_cons_self
    have h6 : contents (wireForm m) = [m] := by
      rw [wireForm, if_pos h5]
      have := Spec.Frames.cons m h4 h5 .nil
      rw [List.append_nil] at this
      exact Ep.contents_eq this
    rw [h6]
    rfl

/-- **C95.** Two programs with endpoints on UDP sockets, at `a` and `b`, and a network that delivers
the datagrams from `a` to `b`, each once and in order: under the conditions of C94 for the program at
`b`, what the stub returns from `a` are exactly the messages for its interface that `send` and `send_to`
have accepted at `a` for `b`, each once, unchanged and in order. -/
theorem C95_stub (e : Exec (Net.step own) Net.init tr s) {a b : Addr} {c : Nat}
    (hf : Feeds tr s a b c) (hn : Faithful tr a b) {t u : Spec.Node.Trace} {k i d : Nat}
    {id : InterfaceId} (hb : at_ b tr = t ++ u) (hr : Resting (s.nodes b)) (hm : Room (s.nodes b))
    (hk : Shown (app t) (.serving k i id)) (ha : arrivals a t = [])
    (hd : (.dropStub k, .none) ∉ app (at_ b tr)) (hg : ¬ Gone (at_ b tr))
    (hc : AllTo (at_ b tr) (s.nodes b) d a)
    (hw : Node.step (s.nodes b) (.app (.stubRecv k)) = none) :
    ((stubGot k (app (at_ b tr))).filter fun x => decide (x.2 = a)).map Prod.fst =
      meantFor id (accepted c (app (at_ a tr))) := by
  have h := carried e hf hn
  have eb := (Net.each e).1 b
  rw [hb] at hd hg hc h eb ⊢
  rw [C94_stub eb hr hm hk ha hd hg hc hw, h]

/-- **C95.** The same for a proxy at `b` whose remote is `a`. -/
theorem C95_proxy (e : Exec (Net.step own) Net.init tr s) {a b : Addr} {c : Nat}
    (hf : Feeds tr s a b c) (hn : Faithful tr a b) {t u : Spec.Node.Trace} {p i d : Nat}
    {id : InterfaceId} (hb : at_ b tr = t ++ u) (hr : Resting (s.nodes b)) (hm : Room (s.nodes b))
    (hp : Shown (app t) (.proxying p i id a)) (ha : arrivals a t = [])
    (hd : (.dropProxy p, .none) ∉ app (at_ b tr)) (hg : ¬ Cut (at_ b tr) a)
    (hc : AllTo (at_ b tr) (s.nodes b) d a)
    (hw : Node.step (s.nodes b) (.app (.proxyRecv p)) = none) :
    proxyGot p (app (at_ b tr)) = meantFor id (accepted c (app (at_ a tr))) := by
  have h := carried e hf hn
  have eb := (Net.each e).1 b
  rw [hb] at hd hg hc h eb ⊢
  rw [C94_proxy eb hr hm hp ha hd hg hc hw, h]

end

/-- A request goes from 5 to 6 and the answer back, and both are returned. -/
def Spec.Net.exchange : List Net.Action :=
  [(6, .app (.serve ⟨1, 1⟩)), (6, .app (.ep true)), (6, .app (.ep true)), (6, .app (.ep true)),
    (6, .app (.ep true)), (6, .app (.ep true)), (6, .app (.lisCmd 0)), (5, .app (.proxy ⟨1, 1⟩ 6)),
    (5, .app (.ep true)), (5, .app (.ep true)), (5, .app (.ep true)), (5, .app (.ep true)),
    (5, .app (.ep true)), (5, .app (.ep true)), (5, .app (.connCmd 0)),
    (5, .app (.proxySend 0 Ep.msgA)), (5, .app (.connCmd 0)), (5, .app (.sent 0 true)),
    (6, .datagram 5 (frame Ep.msgA)), (6, .task), (6, .task), (6, .task), (6, .task),
    (6, .app (.accept 0 5)), (6, .app (.lisShare 0)), (6, .app (.packet 0 (.packet (frame Ep.msgA)))),
    (6, .app (.route 0)), (6, .app (.route 0)), (6, .app (.route 0)), (6, .app (.stubRecv 0)),
    (6, .app (.stubSend 0 5 answerA)), (6, .app (.stubStep 0)), (6, .app (.stubStep 0)),
    (6, .app (.stubStep 0)), (6, .app (.connCmd 0)), (6, .app (.sent 0 true)),
    (5, .datagram 6 (frame answerA)), (5, .task), (5, .task),
    (5, .app (.packet 0 (.packet (frame answerA)))), (5, .app (.route 0)), (5, .app (.route 0)),
    (5, .app (.route 0)), (5, .app (.proxyRecv 0))]

/-- What `AllTo` asks for, as far as it can be seen from a list. -/
def Spec.Net.allTo (tr : Spec.Node.Trace) (s : Node.State) (a : Addr) : Bool :=
  decide ((∃ x ∈ app tr, x.2 = .opened 0 a) ∧ (s.ep.conns 0).alive = true ∧ s.chan 0 = 0 ∧
    (∀ e ∈ Udp.fates (socket tr), e.1 = a → e.2.2 = some 0) ∧
    (∀ e ∈ socket tr, (match e with | (_, .lagged _) => false | _ => true) = true) ∧
    (∀ x ∈ app tr, (match x.2 with | .opened d _ => d == 0 | _ => true) = true) ∧
    ∀ m ∈ accepted 0 (app tr), Someip.MessageType.fromU8 m.messageType.asU8 = m.messageType ∧
      Someip.ReturnCode.fromU8 m.returnCode.asU8 = m.returnCode ∧ 8 + m.payload.length < 4294967296)

theorem allTo_spec {tr : Spec.Node.Trace} {s : Node.State} {a : Addr}
    (e : Exec Node.step Node.init tr s) (h : allTo tr s a = true) :
    AllTo tr s 0 a ∧ (∀ d, Shown (app tr) (.opened d a) → d = 0) ∧
      ∀ m ∈ accepted 0 (app tr), Normal m ∧ 8 + m.payload.length < 2 ^ 32 := by
  obtain ⟨⟨x, o1, o2⟩, h1, h2, h3, h4, h5, h6⟩ := of_decide_eq_true h
  refine ⟨⟨⟨x.1, o2 ▸ o1⟩, ((Ep.conn_open_iff (Node.parts e).1 0).mp h1).2, ?_, ?_⟩, ?_,
    fun m hm => ⟨⟨(h6 m hm).1, (h6 m hm).2.1⟩, (h6 m hm).2.2⟩⟩
  · rw [h2]; exact fun p x hx => h3 _ hx rfl
  · exact fun n hx => absurd (h4 _ hx) (by simp)
  · rintro d ⟨y, hy⟩
    simpa using h5 _ hy

/-- The hypotheses of `C95_stub` for the request and of `C95_proxy` for the answer hold together. -/
example : ∃ tr s t u t' u', Exec (Net.step two) Net.init tr s ∧ at_ 6 tr = t ++ u ∧
    at_ 5 tr = t' ++ u' ∧
    (Feeds tr s 5 6 0 ∧ Faithful tr 5 6 ∧ Shown (app t) (.serving 0 0 ⟨1, 1⟩) ∧ arrivals 5 t = [] ∧
      (.dropStub 0, .none) ∉ app (at_ 6 tr) ∧ ¬ Gone (at_ 6 tr) ∧ AllTo (at_ 6 tr) (s.nodes 6) 0 5 ∧
      Node.step (s.nodes 6) (.app (.stubRecv 0)) = none ∧
      stubGot 0 (app (at_ 6 tr)) = [(Ep.msgA, 5)]) ∧
    Feeds tr s 6 5 0 ∧ Faithful tr 6 5 ∧ Shown (app t') (.proxying 0 0 ⟨1, 1⟩ 6) ∧
      arrivals 6 t' = [] ∧ (.dropProxy 0, .none) ∉ app (at_ 5 tr) ∧ ¬ Cut (at_ 5 tr) 6 ∧
      AllTo (at_ 5 tr) (s.nodes 5) 0 6 ∧ Node.step (s.nodes 5) (.app (.proxyRecv 0)) = none ∧
      proxyGot 0 (app (at_ 5 tr)) = [answerA] := by
  obtain ⟨tr, s, e, h⟩ := exec_by (step := Net.step two) (s := Net.init) exchange (fun tr s =>
    calm (s.nodes 5) && calm (s.nodes 6) && allTo (at_ 5 tr) (s.nodes 5) 6 &&
    allTo (at_ 6 tr) (s.nodes 6) 5 && decide (
      ((∃ x ∈ app ((at_ 6 tr).take 7), x.2 = .serving 0 0 ⟨1, 1⟩) ∧
        arrivals 5 ((at_ 6 tr).take 7) = [] ∧ (.dropStub 0, .none) ∉ app (at_ 6 tr) ∧
        (Node.step (s.nodes 6) (.app (.stubRecv 0))).isNone = true ∧
        stubGot 0 (app (at_ 6 tr)) = [(Ep.msgA, 5)] ∧
        arrivals 5 (at_ 6 tr) = outTo 6 (at_ 5 tr) ∧ (.failure, .none) ∉ socket (at_ 6 tr)) ∧
      (∃ x ∈ app ((at_ 5 tr).take 8), x.2 = .proxying 0 0 ⟨1, 1⟩ 6) ∧
        arrivals 6 ((at_ 5 tr).take 8) = [] ∧ (.dropProxy 0, .none) ∉ app (at_ 5 tr) ∧
        (Node.step (s.nodes 5) (.app (.proxyRecv 0))).isNone = true ∧
        proxyGot 0 (app (at_ 5 tr)) = [answerA] ∧
        arrivals 6 (at_ 5 tr) = outTo 5 (at_ 6 tr) ∧ (.failure, .none) ∉ socket (at_ 5 tr) ∧
        (∀ e ∈ app (at_ 5 tr), (match e with | (.sent _ false, _) => false | _ => true) = true) ∧
        ∀ e ∈ socket (at_ 5 tr), (match e with
          | (.connect _, .connection c a) | (.task, .admitted a _ c) => a != 6 || c == 0
          | _ => true) = true))
    (by decide +kernel)
  simp only [Bool.and_eq_true, decide_eq_true_eq, Option.isNone_iff_eq_none] at h
  obtain ⟨⟨⟨⟨c5, c6⟩, a5⟩, a6⟩, ⟨⟨x, s1, s2⟩, s3, s4, s5, s6, s7, s8⟩, ⟨y, p1, p2⟩, p3, p4, p5, p6, p7,
    p8, p9, p10⟩ := h
  obtain ⟨r5, m5⟩ := calm_rests ((Net.each e).1 5) c5
  obtain ⟨r6, m6⟩ := calm_rests ((Net.each e).1 6) c6
  obtain ⟨a5, o5, n5⟩ := allTo_spec ((Net.each e).1 5) a5
  obtain ⟨a6, o6, n6⟩ := allTo_spec ((Net.each e).1 6) a6
  refine ⟨tr, s, _, _, _, _, e, (List.take_append_drop 7 _).symm, (List.take_append_drop 8 _).symm,
    ⟨⟨a5.opened, o5, a5.running, r5, m5, n5⟩, s7, ⟨x.1, s2 ▸ s1⟩, s3, s4, fun h => s8 h.2, a6, s5, s6⟩,
    ⟨a6.opened, o6, a6.running, r6, m6, n6⟩, p7, ⟨y.1, p2 ▸ p1⟩, p3, p4, ?_, a5, p5, p6⟩
  have made : ∀ d, Udp.Made (socket (at_ 5 tr)) d 6 → d = 0 := by
    rintro d (h | ⟨p, h⟩) <;> simpa using p10 _ h
  rintro (⟨c, -, y, h⟩ | ⟨d, d', hd, h1, h2⟩ | h)
  · exact absurd (p9 _ h) (by simp)
  · exact hd ((made d h1).trans (made d' h2).symm)
  · exact p8 h.2

end Rsomeip
