import Verif.Lemmas.NodeOnce

/-! # C82: where messages come from, on a UDP socket -/

namespace Rsomeip

open Rt Rt.Node Spec Spec.Node

theorem sent_arrived {tr : Trace} {s : State} (e : Exec Node.step Node.init tr s) {a : Addr}
    {m : Msg} {t : Spec.Ep.Trace} (ht : ∀ x ∈ t, x ∈ app tr) (h : Spec.Ep.Sent t a m) :
    ∃ b ∈ arrivals a tr, ∃ ms, Frames b ms ∧ m ∈ ms := by
  obtain ⟨c, b, ms, ⟨y, h1⟩, h2, h3, h4⟩ := h
  exact ⟨b, (read_arrived e ⟨y, ht _ h1⟩).subset (mem_reads (ht _ h2)), ms, h3, h4⟩

/-- Service 1 is served and a proxy for service 2 at address 7 is made. The peer at 8 sends a datagram
with a message for either, the one at 7 sends one for service 2, and the one at 8 sends its first
message once more. -/
def Spec.Node.sample : List Node.Action :=
  [.app (.serve ⟨1, 1⟩), .app (.ep true), .app (.ep true), .app (.ep true), .app (.ep true),
    .app (.ep true), .app (.lisCmd 0), .app (.proxy ⟨2, 1⟩ 7), .app (.ep true), .app (.ep true),
    .app (.ep true), .app (.ep true), .app (.ep true), .app (.ep true), .app (.connCmd 0),
    .datagram 8 (frame Ep.msgA ++ frame Ep.msgB), .task, .task, .task, .task, .app (.accept 0 8),
    .app (.lisShare 0), .datagram 7 (frame Ep.msgB'), .task, .task, .datagram 8 (frame Ep.msgA),
    .task, .task, .app (.packet 1 (.packet (frame Ep.msgA ++ frame Ep.msgB))), .app (.route 1),
    .app (.route 1), .app (.route 1), .app (.route 1), .app (.route 1),
    .app (.packet 0 (.packet (frame Ep.msgB'))), .app (.route 0), .app (.route 0), .app (.packet 1 (.packet (frame Ep.msgA))), .app (.route 1),
    .app (.route 1), .app (.stubRecv 0), .app (.stubRecv 0), .app (.proxyRecv 0),
    .app (.proxyRecv 0)]

/-- **C82.** On a UDP socket, a message that a stub returned with address `a` was contained in a
datagram (cut to 1400 bytes) that arrived from `a`. -/
theorem C82_stub {tr : Trace} {s : State} (e : Exec Node.step Node.init tr s) {k : Nat} {m : Msg}
    {a : Addr} (h : (.stubRecv k, .message m a) ∈ app tr) :
    ∃ b ∈ arrivals a tr, ∃ ms, Frames b ms ∧ m ∈ ms := by
  obtain ⟨t, u, hu⟩ := List.append_of_mem h
  have e1 := (parts e).1
  rw [hu, List.append_cons] at e1
  obtain ⟨s1, e2, _⟩ := e1.split
  exact sent_arrived e (fun x hx => by rw [hu]; exact List.mem_append_left _ hx) (C53_stub e2).2

/-- **C82.** On a UDP socket, a message that a proxy returned was contained in a datagram that arrived
from the proxy's remote. -/
theorem C82_proxy {tr : Trace} {s : State} (e : Exec Node.step Node.init tr s) {p : Nat} {m : Msg}
    (h : (.proxyRecv p, .reply m) ∈ app tr) :
    ∃ i id a, Spec.Ep.Shown (app tr) (.proxying p i id a) ∧
      ∃ b ∈ arrivals a tr, ∃ ms, Frames b ms ∧ m ∈ ms := by
  obtain ⟨t, u, hu⟩ := List.append_of_mem h
  have e1 := (parts e).1
  rw [hu, List.append_cons] at e1
  obtain ⟨s1, e2, _⟩ := e1.split
  obtain ⟨i, id, a, h1, _, h2⟩ := C53_proxy e2
  refine ⟨i, id, a, ?_, sent_arrived e (fun x hx => by rw [hu]; exact List.mem_append_left _ hx) h2⟩
  rw [hu]
  exact h1.mono _

/-- Both happen. -/
example : ∃ tr s, Exec Node.step Node.init tr s ∧
    (.stubRecv 0, .message Ep.msgA 8) ∈ app tr ∧ (.proxyRecv 0, .reply Ep.msgB') ∈ app tr :=
  let ⟨tr, s, e, h⟩ := exec_by sample (fun tr _ => (.stubRecv 0, .message Ep.msgA 8) ∈ app tr ∧
    (.proxyRecv 0, .reply Ep.msgB') ∈ app tr) (by decide +kernel)
  ⟨tr, s, e, of_decide_eq_true h⟩

/-- **C82.** The messages a connection to `a` put into the channel of a stub or proxy are, in order,
messages contained in the datagrams that arrived from `a`. -/
theorem C82_order {tr : Trace} {s : State} (e : Exec Node.step Node.init tr s) {c : Nat} {a : Addr}
    (hc : Spec.Ep.Shown (app tr) (.opened c a)) (i : Nat) :
    (Spec.Ep.given c i (app tr)).Sublist ((arrivals a tr).flatMap Spec.Ep.contents) := by
  refine (C56_order (parts e).1 c i).trans ?_
  rw [heard_eq]
  exact flatMap_sublist (read_arrived e hc)

/-- In the sample, connection 1 to address 8 puts two messages into the stub's channel. -/
example : ∃ tr s, Exec Node.step Node.init tr s ∧ Spec.Ep.Shown (app tr) (.opened 1 8) ∧
    Spec.Ep.given 1 0 (app tr) = [Ep.msgA, Ep.msgA] :=
  let ⟨tr, s, e, h⟩ := exec_by sample (fun tr _ => (.accept 0 8, .opened 1 8) ∈ app tr ∧
    Spec.Ep.given 1 0 (app tr) = [Ep.msgA, Ep.msgA]) (by decide +kernel)
  have h := of_decide_eq_true h
  ⟨tr, s, e, ⟨_, h.1⟩, h.2⟩

/-- **C82.** No copies: a message contained `n` times in the datagrams from `a` is returned at most `n`
times with address `a`, all stubs and proxies taken together. -/
theorem C82_once {tr : Trace} {s : State} (e : Exec Node.step Node.init tr s) (m : Msg) (a : Addr) :
    (returned (app tr)).count (m, a) ≤ ((arrivals a tr).flatMap Spec.Ep.contents).count m :=
  have eE := (parts e).1
  Nat.le_trans (returned_le eE (m, a) _ fun _ h => h)
    (Nat.le_trans (routedTo_le _ _ (channels_nodup eE) _) (routed_count e m a))

/-- In the sample, the peer at 8 sends a message twice and it is returned twice. -/
example : ∃ tr s, Exec Node.step Node.init tr s ∧ (returned (app tr)).count (Ep.msgA, 8) = 2 ∧
    arrivals 8 tr = [frame Ep.msgA ++ frame Ep.msgB, frame Ep.msgA] :=
  let ⟨tr, s, e, h⟩ := exec_by sample (fun tr _ => (returned (app tr)).count (Ep.msgA, 8) = 2 ∧
    arrivals 8 tr = [frame Ep.msgA ++ frame Ep.msgB, frame Ep.msgA]) (by decide +kernel)
  ⟨tr, s, e, of_decide_eq_true h⟩

example : ([frame Ep.msgA ++ frame Ep.msgB, frame Ep.msgA].flatMap Spec.Ep.contents).count Ep.msgA =
    2 := by
  have h1 : Spec.Ep.contents (frame Ep.msgA ++ frame Ep.msgB) = [Ep.msgA, Ep.msgB] :=
    Ep.contents_route (by decide +kernel)
  have h2 : Spec.Ep.contents (frame Ep.msgA) = [Ep.msgA] := Ep.contents_route (by decide +kernel)
  simp only [List.flatMap_cons, List.flatMap_nil, h1, h2]
  decide

end Rsomeip
