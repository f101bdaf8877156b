import Verif.Lemmas.TcpNode
import Verif.Props.Rt.Endpoint
import Verif.Props.Rt.Send
import Verif.Lemmas.Net

/-! # C87: an endpoint on a TCP socket -/

namespace Rsomeip

open Rt Rt.TcpNode Spec Spec.TcpNode Someip
open Spec.Ep (Shown accepted wireForm heard given)
open Spec.Node (reads)

/-! ### Sending -/

/-- A proxy for service 2 at address 7 is made and sends two messages; the second one is only partly
written so far. -/
def Spec.TcpNode.sending : List TcpNode.Action :=
  [.app (.proxy ⟨2, 1⟩ 7), .app (.ep true), .app (.ep true), .app (.ep true), .app (.ep true),
    .app (.ep true), .app (.ep true), .app (.connCmd 0), .app (.proxySend 0 Ep.msgB),
    .app (.connCmd 0), .app (.proxySend 0 Ep.msgB'), .write 0 (.wrote 10), .write 0 .wouldBlock,
    .write 0 (.wrote 100), .app (.connCmd 0), .write 0 (.wrote 7)]

/-- **C87.** What is written to a TCP connection is the beginning of the accepted messages, one after
the other, whatever pieces the operating system takes and whatever else happens meanwhile. -/
theorem C87_written {tr : Trace} {s : State} (e : Exec TcpNode.step TcpNode.init tr s) (c : Nat) :
    written c tr <+: ((accepted c (app tr)).map wireForm).flatten := (streams e).pre c

/-- One message and the beginning of another one. -/
example : ∃ tr s, Exec TcpNode.step TcpNode.init tr s ∧
    accepted 0 (app tr) = [Ep.msgB, Ep.msgB'] ∧
    written 0 tr = frame Ep.msgB ++ (frame Ep.msgB').take 7 :=
  let ⟨tr, s, e, h⟩ := exec_by sending (fun tr _ => accepted 0 (app tr) = [Ep.msgB, Ep.msgB'] ∧
    written 0 tr = frame Ep.msgB ++ (frame Ep.msgB').take 7) (by decide +kernel)
  ⟨tr, s, e, of_decide_eq_true h⟩

/-- **C87.** A connection whose task ends because nobody has a handle of it has written all accepted
messages completely. -/
theorem C87_flushed {tr : Trace} {s : State} {c : Nat} {o : TcpNode.Obs}
    (e : Exec TcpNode.step TcpNode.init (tr ++ [(.app (.connCmd c), o)]) s)
    (h : o.ep = some (.connCmd c, .ended)) :
    written c tr = ((accepted c (app tr)).map wireForm).flatten := by
  obtain ⟨s₁, e₁, hs⟩ := e.last
  have h1 := part e
  rw [app_snoc, h] at h1
  have h2 := C74_flushed h1
  rw [← h2]
  cases TcpNode.move_of_step hs with
  | app x e' o _ _ he =>
    cases h
    generalize hy : Ep.Obs.ended = y at he
    cases Ep.move_of_step he with
    | cmdPanic _ m q _ _ _ hb => rw [Ep.outgoing_eq] at hb; cases hb
    | cmdEnd _ ha ho hq =>
      rw [(streams e₁).outs c ha, ho]
      exact List.append_nil _
    | _ => cases hy

/-- The proxy is dropped, the message is written, the connection ends. -/
example : ∃ tr o s, Exec TcpNode.step TcpNode.init (tr ++ [(.app (.connCmd 0), o)]) s ∧
    o.ep = some (.connCmd 0, .ended) ∧ accepted 0 (app tr) = [Ep.msgB] := by
  obtain ⟨tr, s, e, h⟩ := exec_by (step := TcpNode.step) (s := TcpNode.init)
    (sending.take 9 ++ [.app (.dropProxy 0), .app (.connCmd 0), .write 0 (.wrote 100)])
    (fun tr s => decide (accepted 0 (app tr) = [Ep.msgB] ∧
      (TcpNode.step s (.app (.connCmd 0))).map (fun x => x.2.ep) =
        some (some (.connCmd 0, .ended)))) (by decide +kernel)
  obtain ⟨h1, h2⟩ := of_decide_eq_true h
  cases h3 : TcpNode.step s (.app (.connCmd 0)) with
  | none => rw [h3] at h2; cases h2
  | some x => exact ⟨tr, x.2, x.1, e.snoc h3, by simpa [h3] using h2, h1⟩

/-- **C87.** Sending never fails by itself: whatever the operating system answers while a buffer is
being sent, the loop goes on or returns; in particular it does not panic. -/
theorem C87_goes_on {tr : Trace} {s : State} (e : Exec TcpNode.step TcpNode.init tr s) {c : Nat}
    {b : Bytes} (hb : (s.ep.conns c).out = some b) (a : Tcp.WriteAnswer) :
    ∃ s' o, TcpNode.step s (.write c a) = some (s', o) := by
  have hg := (Ep.good_hist (part e)).1
  have hr := (streams e).prog c (.inl (out_alive hg hb).1)
  rw [hb] at hr
  have h := round a hr
  simp only [TcpNode.step, write, hb]
  generalize Tcp.send b (s.sent c) [] [a] = r at h ⊢
  obtain ⟨r, w⟩ := r
  cases r with
  | panic => exact h.elim
  | pending => exact ⟨_, _, rfl⟩
  | ok => simp [does, Ep.step, Ep.sent, hb]
  | error => simp [does, Ep.step, Ep.sent, hb]

/-- A buffer of which seven bytes are written. -/
example : ∃ tr s, Exec TcpNode.step TcpNode.init tr s ∧
    (s.ep.conns 0).out = some (frame Ep.msgB') ∧ s.sent 0 = 7 :=
  let ⟨tr, s, e, h⟩ := exec_by sending
    (fun _ s => (s.ep.conns 0).out = some (frame Ep.msgB') ∧ s.sent 0 = 7) (by decide +kernel)
  ⟨tr, s, e, of_decide_eq_true h⟩

/-! ### Receiving -/

/-- A proxy for service 2 at address 7 is made, a message arrives in two pieces and is read in two
pieces. -/
def Spec.TcpNode.receiving : List TcpNode.Action :=
  sending.take 8 ++ [.arrive 0 ((frame Ep.msgB').take 17), .read 0 (.read 1400), .app (.route 0),
    .app (.route 0), .app (.route 0), .app (.proxyRecv 0), .arrive 0 ((frame Ep.msgB').drop 17),
    .read 0 (.read 1400)]

/-- **C87.** The packets a connection receives are the bytes that arrived, from the first one on, none
left out, none twice. -/
theorem C87_reads {tr : Trace} {s : State} (e : Exec TcpNode.step TcpNode.init tr s) (c : Nat) :
    (reads c (app tr)).flatten <+: arrived c tr := ⟨s.inb c, in_hist e c⟩

/-- **C87 fails as stated.** A proxy returns a message its remote never sent: the bytes of one message
arrived, a read ended inside it, and what is returned is a message with another payload. -/
theorem C87_false : ∃ tr s m, Exec TcpNode.step TcpNode.init tr s ∧
    Shown (app tr) (.opened 0 7) ∧ arrived 0 tr = frame Ep.msgB' ∧
    (.proxyRecv 0, .reply m) ∈ app tr ∧ m ≠ Ep.msgB' := by
  obtain ⟨tr, s, e, h⟩ := exec_by (step := TcpNode.step) (s := TcpNode.init) receiving
    (fun tr _ => decide ((.ep true, .opened 0 7) ∈ app tr ∧ arrived 0 tr = frame Ep.msgB' ∧
      (.proxyRecv 0, .reply { Ep.msgB' with payload := Ep.msgB'.payload.take 1 }) ∈ app tr))
    (by decide +kernel)
  obtain ⟨h1, h2, h3⟩ := of_decide_eq_true h
  exact ⟨tr, s, _, e, ⟨_, h1⟩, h2, h3, by decide⟩

/-- A message is at the front in only one way. -/
theorem frame_front {m m' : Msg} {x y : Bytes} (h : Plain m) (h' : Plain m')
    (he : frame m ++ x = frame m' ++ y) : m = m' ∧ x = y := by
  have hlen : m.payload.length = m'.payload.length := by
    have h1 := congrArg (fun b => (b.drop 4).take 4) he
    simp only [frame, frameWith] at h1
    have key : ∀ (a b : Nat) (c r : Bytes), (((be 2 a ++ be 2 b ++ c ++ r).drop 4).take 4) =
        (c ++ r).take 4 := by
      intro a b c r
      rw [List.append_assoc (be 2 a ++ be 2 b), List.drop_left' (by simp)]
    simp only [List.append_assoc] at h1 key
    rw [key, key, List.take_left' (by simp), List.take_left' (by simp)] at h1
    rw [be_eq_natToBE, be_eq_natToBE] at h1
    have h2 := natToBE_injective (by have := h.2; omega) (by have := h'.2; omega) h1
    omega
  obtain ⟨h1, h2⟩ := List.append_inj he (by rw [frame_length, frame_length, hlen])
  exact ⟨Rt.Net.frame_inj h.1 h'.1 h.2 h1, h2⟩

theorem frames_prefix {ms ms' : List Msg} (h : ∀ m ∈ ms, Plain m) (h' : ∀ m ∈ ms', Plain m)
    (he : ms.flatMap frame <+: ms'.flatMap frame) : ms <+: ms' := by
  induction ms generalizing ms' with
  | nil => exact List.nil_prefix
  | cons m ms ih =>
    obtain ⟨z, hz⟩ := he
    cases ms' with
    | nil =>
      have := congrArg List.length hz
      rw [List.flatMap_cons, List.append_assoc, List.length_append, frame_length] at this
      simp at this
    | cons m' ms' =>
      rw [List.flatMap_cons, List.flatMap_cons, List.append_assoc] at hz
      obtain ⟨rfl, h3⟩ := frame_front (h m (List.mem_cons_self ..)) (h' m' (List.mem_cons_self ..)) hz
      exact (List.prefix_cons_inj m).mpr (ih (fun x hx => h x (List.mem_cons_of_mem _ hx))
        (fun x hx => h' x (List.mem_cons_of_mem _ hx)) ⟨z, h3⟩)

/-- **C87**, the part that holds: two endpoints are connected by TCP, which carries what one side
writes to the other side. If every read ends at the end of a message, then what the receiving side
hears is what the sending side accepted, in order, from the first one on, unchanged. What is missing:
reads that end inside a message, see above. -/
theorem C87_messages_partial {tr₁ tr₂ : Trace} {s₁ s₂ : State} {c₁ c₂ : Nat}
    (e₁ : Exec TcpNode.step TcpNode.init tr₁ s₁) (e₂ : Exec TcpNode.step TcpNode.init tr₂ s₂)
    (hc : arrived c₂ tr₂ <+: written c₁ tr₁)
    (hp : ∀ m ∈ accepted c₁ (app tr₁), Plain m)
    (hw : ∀ b ∈ reads c₂ (app tr₂), Whole b) :
    heard c₂ (app tr₂) <+: accepted c₁ (app tr₁) := by
  have h1 := ((C87_reads e₂ c₂).trans hc).trans (C87_written e₁ c₁)
  have h2 : ((accepted c₁ (app tr₁)).map wireForm).flatten =
      (accepted c₁ (app tr₁)).flatMap frame := by
    rw [List.flatMap_def]
    congr 1
    refine List.map_congr_left fun m hm => ?_
    rw [wireForm, if_pos (hp m hm).2]
  rw [h2] at h1
  rw [Node.heard_eq]
  have h3 : ∀ bs : List Bytes, (∀ b ∈ bs, Whole b) →
      (∀ m ∈ bs.flatMap Spec.Ep.contents, Plain m) ∧
      bs.flatten = (bs.flatMap Spec.Ep.contents).flatMap frame := by
    intro bs
    induction bs with
    | nil => intro _; exact ⟨nofun, rfl⟩
    | cons b bs ih =>
      intro h
      obtain ⟨i1, i2⟩ := ih fun x hx => h x (List.mem_cons_of_mem _ hx)
      obtain ⟨ms, h4, h5⟩ := h b (List.mem_cons_self ..)
      have h6 : Spec.Ep.contents b = ms := by
        rw [h5]; exact Rt.Ep.contents_eq (Frames.flatMap ms h4)
      constructor
      · intro m hm
        rw [List.flatMap_cons, List.mem_append, h6] at hm
        exact hm.elim (h4 m) (i1 m)
      · rw [List.flatten_cons, List.flatMap_cons, List.flatMap_append, ← i2, h6, ← h5]
  obtain ⟨h4, h5⟩ := h3 _ hw
  rw [h5] at h1
  exact frames_prefix h4 hp h1

/-- **C87**, the part that holds: what is put into the channel of a stub or proxy. -/
theorem C87_given_partial {tr₁ tr₂ : Trace} {s₁ s₂ : State} {c₁ c₂ : Nat}
    (e₁ : Exec TcpNode.step TcpNode.init tr₁ s₁) (e₂ : Exec TcpNode.step TcpNode.init tr₂ s₂)
    (hc : arrived c₂ tr₂ <+: written c₁ tr₁)
    (hp : ∀ m ∈ accepted c₁ (app tr₁), Plain m)
    (hw : ∀ b ∈ reads c₂ (app tr₂), Whole b) (i : Nat) :
    (given c₂ i (app tr₂)).Sublist (accepted c₁ (app tr₁)) :=
  (C56_order (part e₂) c₂ i).trans (C87_messages_partial e₁ e₂ hc hp hw).sublist

/-- One endpoint sends two messages, the other one reads them with two reads. -/
example : ∃ tr₁ s₁ tr₂ s₂, Exec TcpNode.step TcpNode.init tr₁ s₁ ∧
    Exec TcpNode.step TcpNode.init tr₂ s₂ ∧ arrived 0 tr₂ <+: written 0 tr₁ ∧
    accepted 0 (app tr₁) = [Ep.msgB, Ep.msgB'] ∧ (∀ m ∈ accepted 0 (app tr₁), Plain m) ∧
    (∀ b ∈ reads 0 (app tr₂), Whole b) ∧ given 0 0 (app tr₂) = [Ep.msgB, Ep.msgB'] := by
  obtain ⟨tr₁, s₁, e₁, h⟩ := exec_by (step := TcpNode.step) (s := TcpNode.init)
    (sending ++ [.write 0 (.wrote 100)])
    (fun tr _ => decide (accepted 0 (app tr) = [Ep.msgB, Ep.msgB'] ∧
      written 0 tr = frame Ep.msgB ++ frame Ep.msgB')) (by decide +kernel)
  obtain ⟨h1, h2⟩ := of_decide_eq_true h
  obtain ⟨tr₂, s₂, e₂, h⟩ := exec_by (step := TcpNode.step) (s := TcpNode.init)
    (sending.take 8 ++ [.arrive 0 ((frame Ep.msgB).take 3),
      .arrive 0 ((frame Ep.msgB).drop 3 ++ frame Ep.msgB'), .read 0 (.read 16), .app (.route 0),
      .app (.route 0), .app (.route 0), .app (.proxyRecv 0), .read 0 (.read 1400), .app (.route 0),
      .app (.route 0), .app (.route 0)])
    (fun tr _ => decide (arrived 0 tr = frame Ep.msgB ++ frame Ep.msgB' ∧
      reads 0 (app tr) = [frame Ep.msgB, frame Ep.msgB'] ∧
      given 0 0 (app tr) = [Ep.msgB, Ep.msgB'])) (by decide +kernel)
  obtain ⟨h3, h4, h5⟩ := of_decide_eq_true h
  have hB : Plain Ep.msgB := ⟨by unfold Normal; decide, by decide⟩
  have hB' : Plain Ep.msgB' := ⟨by unfold Normal; decide, by decide⟩
  refine ⟨tr₁, s₁, tr₂, s₂, e₁, e₂, by rw [h2, h3]; exact List.prefix_rfl, h1, ?_, ?_, h5⟩
  · rw [h1]; simp [hB, hB']
  · rw [h4]
    simp only [List.mem_cons, List.not_mem_nil, or_false]
    rintro b (rfl | rfl)
    · exact ⟨[_], by simpa using hB, by simp⟩
    · exact ⟨[_], by simpa using hB', by simp⟩

end Rsomeip
