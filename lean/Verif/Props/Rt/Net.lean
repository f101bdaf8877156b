import Verif.Lemmas.Net

/-! # C83: from one endpoint to another -/

namespace Rsomeip

open Rt Rt.Net Spec Spec.Net

/-- What a node's stubs and proxies return arrived at it before. -/
theorem returns_arrived {tr : Spec.Node.Trace} {s : Node.State} {x : Node.Action} {o : Node.Obs}
    {m : Msg} {a : Addr} (e : Exec Node.step Node.init (tr ++ [(x, o)]) s)
    (h : Returns (Spec.Node.app tr) x o m a) :
    ∃ b ∈ Spec.Node.arrivals a tr, ∃ ms, Frames b ms ∧ m ∈ ms := by
  obtain ⟨s1, e1, _⟩ := e.last
  have eE := (Node.parts e).1
  rw [Node.app_snoc] at eE
  cases h with
  | stub k m a us out => exact sent_arrived e1 (fun _ h => h) (C53_stub eE).2
  | proxy p i id m a us out hp =>
    obtain ⟨i', id', a', h1, _, h2⟩ := C53_proxy eE
    have hm := Ep.made (Node.parts e1).1
    have : a' = a := (hm.proxy p i' id' a' h1).2.2.1.symm.trans (hm.proxy p i id a hp).2.2.1
    subst this
    exact sent_arrived e1 (fun _ h => h) h2

/-- **C83.** Several programs with endpoints on UDP sockets, on a network that may lose, delay, repeat
and reorder datagrams: a message that a stub or proxy of the program at `n` returns as coming from the
program at `a` was sent before by a stub or proxy of that program to `n`. All fields and the payload
are the same on the wire. -/
theorem C83_sent {own : Addr → Bool} {tr : Trace} {s : State} {n a : Addr} {x : Node.Action}
    {o : Node.Obs} {m : Msg} (e : Exec (step own) init (tr ++ [((n, x), o)]) s)
    (h : Returns (Spec.Node.app (at_ n tr)) x o m a) (ha : own a = true) :
    ∃ m₀, SentTo (Spec.Node.app (at_ a tr)) n m₀ ∧ frame m = frame m₀ := by
  obtain ⟨s1, e1, _⟩ := e.last
  have en := (each e).1 n
  rw [at_snoc, if_pos rfl] at en
  obtain ⟨b, hb, ms, hf, hm⟩ := returns_arrived en h
  obtain ⟨p, rfl, hp⟩ := arrived_sent e1 ha hb
  obtain ⟨m₀, h1, rfl, h2⟩ := Node.out_sent ((each e1).1 a) hp
  rw [List.take_of_length_le h2] at hf
  exact ⟨m₀, h1, (sent_contents hf hm).1⟩

/-- **C83.** If all messages the program at `a` sends are normal (message type and return code are not
given as `Unknown` with the number of a known one), then what is returned is exactly what was sent. -/
theorem C83_unchanged {own : Addr → Bool} {tr : Trace} {s : State} {n a : Addr} {x : Node.Action}
    {o : Node.Obs} {m : Msg} (e : Exec (step own) init (tr ++ [((n, x), o)]) s)
    (h : Returns (Spec.Node.app (at_ n tr)) x o m a) (ha : own a = true)
    (hn : ∀ y c m₀, (y, .accepted c m₀) ∈ Spec.Node.app (at_ a tr) → Normal m₀) :
    SentTo (Spec.Node.app (at_ a tr)) n m := by
  obtain ⟨s1, e1, _⟩ := e.last
  have en := (each e).1 n
  rw [at_snoc, if_pos rfl] at en
  obtain ⟨b, hb, ms, hf, hm⟩ := returns_arrived en h
  obtain ⟨p, rfl, hp⟩ := arrived_sent e1 ha hb
  obtain ⟨m₀, h1, rfl, h2⟩ := Node.out_sent ((each e1).1 a) hp
  rw [List.take_of_length_le h2] at hf
  obtain ⟨h3, h4, h5⟩ := sent_contents hf hm
  have h6 : ∃ y c, (y, .accepted c m₀) ∈ Spec.Node.app (at_ a tr) := by
    rcases h1 with ⟨t, u, k, c, h, _⟩ | ⟨p, c, i, id, h, _⟩
    · exact ⟨.stubStep k, c, by rw [h]; simp⟩
    · exact ⟨_, c, h⟩
  obtain ⟨y, c, h6⟩ := h6
  rw [← frame_inj (hn y c m₀ h6) h4 h5 h3.symm]
  exact h1

/-- The answer to `msgA`. -/
def Spec.Net.answerA : Msg := ⟨1, 5, 2, 3, 1, 1, .response, .ok, [7, 8]⟩

/-- Two programs, at addresses 5 and 6. -/
def Spec.Net.two : Addr → Bool := fun a => a = 5 || a = 6

/-- The program at 6 serves an interface. The one at 5 makes a proxy for it and sends a request; the
datagram arrives twice. The stub returns the request and answers. -/
def Spec.Net.dialogue : List Action :=
  [(6, .app (.serve ⟨1, 1⟩)), (6, .app (.ep true)), (6, .app (.ep true)), (6, .app (.ep true)),
    (6, .app (.ep true)), (6, .app (.ep true)), (6, .app (.lisCmd 0)), (5, .app (.proxy ⟨1, 1⟩ 6)),
    (5, .app (.ep true)), (5, .app (.ep true)), (5, .app (.ep true)), (5, .app (.ep true)),
    (5, .app (.ep true)), (5, .app (.ep true)), (5, .app (.connCmd 0)),
    (5, .app (.proxySend 0 Ep.msgA)), (5, .app (.connCmd 0)), (5, .app (.sent 0 true)),
    (6, .datagram 5 (frame Ep.msgA)), (6, .task), (6, .task), (6, .task), (6, .task),
    (6, .app (.accept 0 5)), (6, .app (.lisShare 0)), (6, .datagram 5 (frame Ep.msgA)), (6, .task),
    (6, .task), (6, .app (.packet 0 (.packet (frame Ep.msgA)))), (6, .app (.route 0)),
    (6, .app (.route 0)), (6, .app (.route 0)), (6, .app (.stubRecv 0)),
    (6, .app (.stubSend 0 5 answerA)), (6, .app (.stubStep 0)), (6, .app (.stubStep 0)),
    (6, .app (.stubStep 0)), (6, .app (.connCmd 0)), (6, .app (.sent 0 true)),
    (5, .datagram 6 (frame answerA)), (5, .task), (5, .task),
    (5, .app (.packet 0 (.packet (frame answerA)))), (5, .app (.route 0)), (5, .app (.route 0)),
    (5, .app (.route 0))]

/-- Every message accepted for sending is normal. -/
def Spec.Net.allNormal (tr : Spec.Ep.Trace) : Bool :=
  tr.all fun e => match e.2 with
    | .accepted _ m => decide (Someip.MessageType.fromU8 m.messageType.asU8 = m.messageType ∧
        Someip.ReturnCode.fromU8 m.returnCode.asU8 = m.returnCode)
    | _ => true

theorem normal_of_all {tr : Spec.Ep.Trace} (h : allNormal tr = true) (y : Ep.Action) (c : Nat)
    (m : Msg) (hm : (y, .accepted c m) ∈ tr) :
    Normal m := by
  have h1 := List.all_eq_true.mp h _ hm
  simp only [decide_eq_true_eq] at h1
  exact h1

/-- The stub at 6 returns the request sent at 5, and the hypotheses hold. -/
example : ∃ tr s o, Exec (step two) init (tr ++ [((6, .app (.stubRecv 0)), o)]) s ∧
    Returns (Spec.Node.app (at_ 6 tr)) (.app (.stubRecv 0)) o Ep.msgA 5 ∧ two 5 = true ∧
    ∀ y c m₀, (y, .accepted c m₀) ∈ Spec.Node.app (at_ 5 tr) → Normal m₀ := by
  obtain ⟨tr, s, e, h⟩ := exec_by (step := step two) (s := init) (dialogue.take 32)
    (fun tr s => ((step two s (6, .app (.stubRecv 0))).map fun x => x.2) =
        some ⟨some (.message Ep.msgA 5), [], []⟩ ∧ allNormal (Spec.Node.app (at_ 5 tr)) = true)
    (by decide +kernel)
  obtain ⟨h1, h2⟩ := of_decide_eq_true h
  obtain ⟨⟨s', o⟩, h3, h4⟩ := Option.map_eq_some_iff.mp h1
  dsimp only at h4
  subst h4
  exact ⟨tr, s', _, e.snoc h3, .stub 0 _ 5 _ _, by decide, normal_of_all h2⟩

/-- The proxy at 5 returns the answer. -/
example : ∃ tr s o, Exec (step two) init (tr ++ [((5, .app (.proxyRecv 0)), o)]) s ∧
    Returns (Spec.Node.app (at_ 5 tr)) (.app (.proxyRecv 0)) o answerA 6 ∧ two 6 = true ∧
    ∀ y c m₀, (y, .accepted c m₀) ∈ Spec.Node.app (at_ 6 tr) → Normal m₀ := by
  obtain ⟨tr, s, e, h⟩ := exec_by (step := step two) (s := init) dialogue
    (fun tr s => ((step two s (5, .app (.proxyRecv 0))).map fun x => x.2) =
        some ⟨some (.reply answerA), [], []⟩ ∧ allNormal (Spec.Node.app (at_ 6 tr)) = true ∧
        (.ep true, .proxying 0 0 ⟨1, 1⟩ 6) ∈ Spec.Node.app (at_ 5 tr))
    (by decide +kernel)
  obtain ⟨h1, h2, h5⟩ := of_decide_eq_true h
  obtain ⟨⟨s', o⟩, h3, h4⟩ := Option.map_eq_some_iff.mp h1
  dsimp only at h4
  subst h4
  exact ⟨tr, s', _, e.snoc h3, .proxy 0 0 ⟨1, 1⟩ _ 6 _ _ ⟨_, h5⟩, by decide, normal_of_all h2⟩

end Rsomeip
