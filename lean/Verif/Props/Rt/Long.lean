import Verif.Props.Rt.Node
import Verif.Props.Rt.Packets
import Verif.Props.Rt.Net

/-! # C112: datagrams longer than the receiver's buffer -/

namespace Rsomeip

open Rt Rt.Node Spec Spec.Node

/-- The datagrams from `a` handed over by the operating system, as they were sent. -/
def Spec.Node.datagrams (a : Addr) (tr : Trace) : List Bytes :=
  tr.filterMap fun
    | (.datagram b p, _) => if b = a then some p else none
    | _ => none

/-- The message with the first `n` bytes of its payload only. -/
def Spec.Node.shortened (n : Nat) (m : Msg) : Msg := { m with payload := m.payload.take n }

namespace Long

theorem frame_take (m : Msg) (k : Nat) :
    (frame m).take (16 + k) = frameWith (shortened k m) m.payload.length := by
  have h : (be 2 m.service.toNat ++ be 2 m.method.toNat ++ be 4 (8 + m.payload.length) ++
    head m).length = 16 := by simp [head]
  show (_ ++ m.payload).take (16 + k) = _ ++ m.payload.take k
  rw [← h, List.take_length_add_append]
  rfl

theorem frames_append {b : Bytes} {ms : List Msg} (h : Frames b ms) (ms' : List Msg)
    (hm : ∀ m ∈ ms', Normal m ∧ 8 + m.payload.length < 2 ^ 32) :
    Frames (ms'.flatMap frame ++ b) (ms' ++ ms) := by
  induction ms' with
  | nil => exact h
  | cons m ms' ih =>
    have := hm m List.mem_cons_self
    rw [List.flatMap_cons, List.append_assoc]
    exact .cons m this.1 this.2 (ih fun x hx => hm x (List.mem_cons_of_mem _ hx))

theorem arrivals_cut (a : Addr) (tr : Trace) : arrivals a tr = (datagrams a tr).map (·.take 1400) := by
  unfold arrivals datagrams
  rw [List.map_filterMap]
  congr 1
  funext x
  rcases x with ⟨_ | ⟨b, p⟩ | _ | _, o⟩
  · rfl
  · by_cases h : b = a <;> simp [h]
  · rfl
  · rfl

end Long

open Long

/-- **C112**, what becomes of a datagram that is too long: the messages before the one that reaches
over the 1400th byte are routed, and of that one the part before, as if it were the whole message, if
that is at least the sixteen bytes of its header. If it is less, and anything at all, the whole datagram
is dropped. What follows is lost in any case. -/
theorem C112_cut (before : List Msg) (m : Msg) (after : Bytes)
    (hb : ∀ x ∈ before, Normal x ∧ 8 + x.payload.length < 2 ^ 32) (hm : Normal m)
    (hl : 8 + m.payload.length < 2 ^ 32) (h1 : (before.flatMap frame).length ≤ 1400)
    (h2 : 1400 < (before.flatMap frame ++ frame m).length) :
    let packet := (before.flatMap frame ++ frame m ++ after).take 1400
    let room := 1400 - (before.flatMap frame).length
    (room = 0 → receive (.packet packet) = .route before) ∧
    (0 < room → room < 16 → ∃ e, receive (.packet packet) = .drop e) ∧
    (16 ≤ room → receive (.packet packet) =
      .route (before ++ [shortened (room - 16) m])) := by
  intro packet room
  have hp : packet = before.flatMap frame ++ (frame m).take room := by
    show List.take 1400 _ = _
    rw [List.take_append_of_le_length (by omega), List.take_append, List.take_of_length_le h1]
  have hfl := frame_length m
  rw [List.length_append] at h2
  refine ⟨fun h => ?_, fun h h' => ?_, fun h => ?_⟩
  · rw [hp, h, List.take_zero, List.append_nil]
    exact C52_messages before hb
  · rw [hp]
    refine C52_trailing_bytes before hb _ ?_ (by rw [List.length_take]; omega)
    intro h0
    have := congrArg List.length h0
    rw [List.length_take, List.length_nil] at this
    omega
  · rw [hp, receive_route]
    refine frames_append ?_ before hb
    rw [show room = 16 + (room - 16) by omega, frame_take, Nat.add_sub_cancel_left]
    exact .cut _ _ hm hl (by rw [shortened, List.length_take]; omega)

/-- A message with a payload of 2000 bytes. -/
def Spec.Node.longMessage : Msg := { Ep.msgA with payload := List.replicate 2000 7 }

theorem Long.long_length : longMessage.payload.length = 2000 := List.length_replicate

theorem Long.long_normal : Normal longMessage := ⟨by decide, by decide⟩

theorem Long.long_cut : receive (.packet ((frame longMessage).take 1400)) =
    .route [shortened 1384 longMessage] := by
  have := (C112_cut [] longMessage [] (by simp) long_normal (by rw [long_length]; decide)
    (by decide) (by simp only [List.flatMap_nil, List.nil_append, frame_length, long_length]; decide)).2.2
    (by decide)
  rw [List.append_nil] at this
  exact this

example : receive (.packet ((frame Ep.msgA ++ frame longMessage ++ [1, 2, 3]).take 1400)) =
    .route [Ep.msgA, shortened (1400 - (frame Ep.msgA).length - 16) longMessage] := by
  have := (C112_cut [Ep.msgA] longMessage [1, 2, 3] (by simpa using ⟨⟨by decide, by decide⟩, by decide⟩)
    long_normal (by rw [long_length]; decide) (by decide)
    (by simp only [List.length_append, frame_length, long_length]; omega)).2.2 (by decide)
  simpa using this

/-- **C112**, the part that holds: if no datagram from `a` was longer than 1400 bytes, a message that a
stub or proxy returns as coming from `a` was contained in a datagram from `a` as it was sent. Missing:
longer datagrams (`C112_false`). -/
theorem C112_whole_partial {tr : Trace} {s : State} {x : Node.Action} {o : Node.Obs} {m : Msg}
    {a : Addr} (e : Exec Node.step Node.init (tr ++ [(x, o)]) s)
    (h : Spec.Net.Returns (app tr) x o m a) (hl : ∀ b ∈ datagrams a tr, b.length ≤ 1400) :
    ∃ b ∈ datagrams a tr, ∃ ms, Frames b ms ∧ m ∈ ms := by
  obtain ⟨b, hb, ms, hf, hm⟩ := returns_arrived e h
  rw [arrivals_cut] at hb
  obtain ⟨b', hb', rfl⟩ := List.mem_map.mp hb
  rw [List.take_of_length_le (hl b' hb')] at hf
  exact ⟨b', hb', ms, hf, hm⟩

/-- The proxy returns a message from its remote, which sends short datagrams. -/
example : ∃ tr x o s, Exec Node.step Node.init (tr ++ [(x, o)]) s ∧
    Spec.Net.Returns (app tr) x o Ep.msgB' 7 ∧ ∀ b ∈ datagrams 7 tr, b.length ≤ 1400 := by
  obtain ⟨tr, s, e, h⟩ := exec_by (step := Node.step) (s := Node.init) sample
    (fun tr _ => decide (tr = tr.dropLast ++ [(.app (.proxyRecv 0), ⟨some (.reply Ep.msgB'), [], []⟩)] ∧
      (Ep.Action.ep true, Ep.Obs.proxying 0 1 ⟨2, 1⟩ 7) ∈ app tr.dropLast ∧
      ∀ b ∈ datagrams 7 tr.dropLast, b.length ≤ 1400)) (by decide +kernel)
  obtain ⟨h1, h2, h3⟩ := of_decide_eq_true h
  rw [h1] at e
  exact ⟨_, _, _, s, e, .proxy 0 1 ⟨2, 1⟩ _ 7 [] [] ⟨_, h2⟩, h3⟩

/-- A long message arrives at a stub. -/
def Spec.Node.longArrives : List Node.Action :=
  [.app (.serve ⟨1, 1⟩), .app (.ep true), .app (.ep true), .app (.ep true), .app (.ep true),
    .app (.ep true), .app (.lisCmd 0), .datagram 8 (frame longMessage), .task, .task, .task, .task,
    .app (.accept 0 8), .app (.lisShare 0),
    .app (.packet 0 (.packet ((frame longMessage).take 1400))), .app (.route 0), .app (.route 0),
    .app (.stubRecv 0)]

/-- **C112 fails as stated.** A stub returns a message that is not what was sent: the only datagram
holds one whole message with a longer payload. -/
theorem C112_false : ∃ tr s m, Exec Node.step Node.init tr s ∧ datagrams 8 tr = [frame longMessage] ∧
    (.stubRecv 0, .message m 8) ∈ app tr ∧ m ≠ longMessage := by
  obtain ⟨tr, s, e, h⟩ := exec_by (step := Node.step) (s := Node.init) longArrives
    (fun tr _ => decide (datagrams 8 tr = [frame longMessage] ∧
      (.stubRecv 0, .message (shortened 1384 longMessage) 8) ∈ app tr))
    (by decide +kernel)
  have h := of_decide_eq_true h
  refine ⟨tr, s, _, e, h.1, h.2, fun he => ?_⟩
  have := congrArg (fun m : Msg => m.payload.length) he
  simp only [shortened, List.length_take, long_length] at this
  omega

/-- **C112**, the endpoints themselves send no such datagrams. -/
theorem C112_sent {tr : Trace} {s : State} (e : Exec Node.step Node.init tr s) {a : Addr} {b : Bytes}
    (h : (a, b) ∈ out tr) : b.length ≤ 1400 := by
  obtain ⟨m₀, h1, rfl, h2⟩ := Node.out_sent e h
  exact h2

/-- A proxy sends a message. -/
example : ∃ tr s, Exec Node.step Node.init tr s ∧ (7, frame Ep.msgA) ∈ out tr :=
  let ⟨tr, s, e, h⟩ := exec_by
    [.app (.proxy ⟨1, 1⟩ 7), .app (.ep true), .app (.ep true), .app (.ep true), .app (.ep true),
      .app (.ep true), .app (.ep true), .app (.connCmd 0), .app (.proxySend 0 Ep.msgA),
      .app (.connCmd 0), .app (.sent 0 true)]
    (fun tr _ => decide ((7, frame Ep.msgA) ∈ out tr)) (by decide +kernel)
  ⟨tr, s, e, of_decide_eq_true h⟩

end Rsomeip
