import Mathlib.Data.List.Flatten
import Verif.Lemmas.Once
import Verif.Props.Rt.Net

/-! # C108: from one endpoint to another at most once -/

namespace Rsomeip

open Rt Spec Spec.Ep Spec.Node Spec.Net

/-- What a program hands to the operating system for `b`, it has accepted for `b`. -/
theorem outTo_accepted {tr : Spec.Node.Trace} {s : Node.State} (ea : Exec Node.step Node.init tr s) (b : Addr) :
    (outTo b tr).Subperm ((acceptedFor b (app tr)).map wireForm) := by
  let Q : Nat → Bool := fun c => (app tr).any fun x => decide (x.2 = .opened c b)
  have h2 := outTo_le ea (b := b) (Q := Q) fun c ⟨x, hx⟩ =>
    List.any_eq_true.mpr ⟨_, hx, by simp⟩
  have h3 := (wires_le (Node.parts ea).1).filter fun x => Q x.1
  have h4 : (((takes (app tr)).map fun x => (x.1, wireForm x.2)).filter fun x => Q x.1).map
      Prod.snd = (acceptedFor b (app tr)).map wireForm := by
    have h (l : Spec.Ep.Trace) : ((((takes l).map fun x => (x.1, wireForm x.2)).filter
        fun x => Q x.1).map Prod.snd) = (l.filterMap fun e => match e.2 with
          | .accepted c m => if Q c then some m else none
          | _ => none).map wireForm := by
      induction l with
      | nil => rfl
      | cons x l ih =>
        obtain ⟨x, o⟩ := x
        cases o with
        | accepted c m => by_cases h : Q c <;> simp_all [takes]
        | _ => simpa [takes] using ih
    exact h _
  obtain ⟨l, hl1, hl2⟩ := h3
  refine h2.subperm.trans ?_
  rw [← h4]
  exact ⟨l.map Prod.snd, hl1.map _, hl2.map _⟩

/-- Datagrams that come from accepted messages contain no more than those. -/
theorem contents_accepted {ps : List Bytes} {ms : List Msg} (h : ps.Subperm (ms.map wireForm))
    (hn : ∀ m ∈ ms, Normal m) (m : Msg) : (ps.flatMap contents).count m ≤ ms.count m := by
  obtain ⟨k, hk1, hk2⟩ := h
  rw [← (hk1.flatMap_right contents).count_eq]
  refine Nat.le_trans ((hk2.flatMap contents).count_le m) ?_
  rw [List.flatMap_map]
  have h6 := List.Sublist.flatMap_right ms
    (f := fun m => contents (wireForm m)) (g := fun m => [m]) fun m hm => contents_wireForm (hn m hm)
  rw [List.flatMap_singleton'] at h6
  exact h6.count_le m

/-- **C108.** Several programs with endpoints on UDP sockets, on a network that may lose, delay and
reorder datagrams but does not repeat those from `a` to `b`: what `send` and `send_to` have accepted
`n` times at `a` for `b`, all stubs and proxies at `b` together return at most `n` times as coming from
`a`. -/
theorem C108_once {own : Addr → Bool} {tr : Spec.Net.Trace} {s : Net.State}
    (e : Exec (Net.step own) Net.init tr s) {a b : Addr} (hr : NoRepeats tr a b)
    (hn : ∀ m ∈ acceptedFor b (app (at_ a tr)), Normal m) (m : Msg) :
    (returned (app (at_ b tr))).count (m, a) ≤ (acceptedFor b (app (at_ a tr))).count m := by
  refine Nat.le_trans (C82_once ((Net.each e).1 b) m a) ?_
  have h1 : (arrivals a (at_ b tr)).Subperm (outTo b (at_ a tr)) := List.subperm_ext_iff.mpr fun p _ => hr p
  exact contents_accepted (h1.trans (outTo_accepted ((Net.each e).1 a) b)) hn m

/-- The datagram with the request arrives once; the stub returns the request. -/
def Spec.Net.once : List Net.Action :=
  dialogue.take 25 ++ (dialogue.drop 28).take 5

/-- The network repeats nothing, the message is normal, and it is returned. -/
example : ∃ tr s, Exec (Net.step two) Net.init tr s ∧ NoRepeats tr 5 6 ∧
    (∀ m ∈ acceptedFor 6 (app (at_ 5 tr)), Normal m) ∧
    (returned (app (at_ 6 tr))).count (msgA, 5) = 1 ∧
    (acceptedFor 6 (app (at_ 5 tr))).count msgA = 1 := by
  obtain ⟨tr, s, e, h⟩ := exec_by (step := Net.step two) (s := Net.init) once
    (fun tr s => arrivals 5 (at_ 6 tr) = outTo 6 (at_ 5 tr) ∧
        acceptedFor 6 (app (at_ 5 tr)) = [msgA] ∧
        (returned (app (at_ 6 tr))).count (msgA, 5) = 1)
    (by decide +kernel)
  obtain ⟨h1, h2, h3⟩ := of_decide_eq_true h
  refine ⟨tr, s, e, fun p => by rw [h1], fun m hm => ?_, h3, by rw [h2]; decide⟩
  rw [h2] at hm
  cases List.mem_singleton.mp hm
  exact ⟨by decide, by decide⟩

/-- **C108.** Nothing tells a repeated datagram from a new one: a message that was accepted once is
returned twice if the network repeats the datagram. -/
theorem C108_repeated : ∃ tr s, Exec (Net.step two) Net.init tr s ∧ Normal msgA ∧
    outTo 6 (at_ 5 tr) = [frame msgA] ∧ arrivals 5 (at_ 6 tr) = [frame msgA, frame msgA] ∧
    (acceptedFor 6 (app (at_ 5 tr))).count msgA = 1 ∧
    (returned (app (at_ 6 tr))).count (msgA, 5) = 2 := by
  obtain ⟨tr, s, e, h⟩ := exec_by (step := Net.step two) (s := Net.init)
    (dialogue.take 33 ++ (dialogue.drop 28).take 5)
    (fun tr s => outTo 6 (at_ 5 tr) = [frame msgA] ∧
        arrivals 5 (at_ 6 tr) = [frame msgA, frame msgA] ∧
        (acceptedFor 6 (app (at_ 5 tr))).count msgA = 1 ∧
        (returned (app (at_ 6 tr))).count (msgA, 5) = 2)
    (by decide +kernel)
  exact ⟨tr, s, e, ⟨by decide, by decide⟩, of_decide_eq_true h⟩

end Rsomeip
