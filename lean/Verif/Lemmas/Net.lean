import Verif.Spec.Net
import Verif.Lemmas.NodeOnce
import Verif.Props.Rt.Node
import Verif.Props.Rt.Send

/-! # Histories of several endpoints -/

namespace Rsomeip.Rt.Net

open Spec.Net

theorem step_inv {own : Addr → Bool} {s s' : State} {x : Action} {o : Node.Obs}
    (h : step own s x = some (s', o)) : own x.1 = true ∧ deliverable own s x.1 x.2 = true ∧
    ∃ t, Node.step (s.nodes x.1) x.2 = some (t, o) ∧
      s' = { nodes := upd s.nodes x.1 t, sent := s.sent ++ o.out.map fun y => (x.1, y.1, y.2) } := by
  simp only [step] at h
  split at h
  · rename_i hc
    rw [Bool.and_eq_true] at hc
    split at h
    · rename_i t w ht
      cases h
      exact ⟨hc.1, hc.2, t, ht, rfl⟩
    · cases h
  · cases h

theorem at_snoc (n : Addr) (tr : Trace) (x : Action) (o : Node.Obs) :
    at_ n (tr ++ [(x, o)]) = at_ n tr ++ if x.1 = n then [(x.2, o)] else [] := by
  rw [at_, List.filterMap_append]
  congr 1
  by_cases h : x.1 = n <;> simp [h]

/-- Every program on its own, and what is on the network. -/
theorem each {own : Addr → Bool} {tr : Trace} {s : State} (e : Exec (step own) init tr s) :
    (∀ n, Exec Node.step Node.init (at_ n tr) (s.nodes n)) ∧
    (∀ n a p, (n, a, p) ∈ s.sent ↔ (a, p) ∈ Spec.Node.out (at_ n tr)) := by
  induction e with
  | nil => exact ⟨fun _ => .nil, fun n a p => by simp [init, at_, Spec.Node.out]⟩
  | @snoc tr1 s1 s2 act ob e1 hs ih =>
    obtain ⟨_, _, t, ht, rfl⟩ := step_inv hs
    refine ⟨fun n => ?_, fun n a p => ?_⟩
    · rw [at_snoc]
      by_cases h : act.1 = n
      · subst h
        dsimp only
        rw [if_pos rfl, upd_same]
        exact .snoc (ih.1 _) ht
      · dsimp only
        rw [if_neg h, List.append_nil, upd_ne _ _ (Ne.symm h)]
        exact ih.1 n
    · rw [at_snoc]
      by_cases h : act.1 = n
      · subst h
        rw [if_pos rfl, Node.out_snoc]
        simp only [List.mem_append, List.mem_map, ih.2]
        constructor
        · rintro (h | ⟨y, hy, h⟩)
          · exact .inl h
          · cases h; exact .inr hy
        · rintro (h | h)
          · exact .inl h
          · exact .inr ⟨_, h, rfl⟩
      · rw [if_neg h, List.append_nil, ← ih.2]
        simp only [List.mem_append, List.mem_map]
        constructor
        · rintro (h | ⟨y, hy, h'⟩)
          · exact h
          · cases h'; exact absurd rfl h
        · exact .inl

/-- A datagram from one of the programs was sent by it. -/
theorem arrived_sent {own : Addr → Bool} {tr : Trace} {s : State} (e : Exec (step own) init tr s)
    {a n : Addr} (ha : own a = true) {b : Bytes} (h : b ∈ Spec.Node.arrivals a (at_ n tr)) :
    ∃ p, b = p.take 1400 ∧ (n, p) ∈ Spec.Node.out (at_ a tr) := by
  induction e with
  | nil => simp [at_, Spec.Node.arrivals] at h
  | @snoc tr1 s1 s2 act ob e1 hs ih =>
    have keep : ∀ p, (n, p) ∈ Spec.Node.out (at_ a tr1) →
        (n, p) ∈ Spec.Node.out (at_ a (tr1 ++ [(act, ob)])) := by
      intro p hp
      rw [at_snoc]
      simp only [Spec.Node.out, List.flatMap_append] at hp ⊢
      exact List.mem_append_left _ hp
    rw [at_snoc, Node.arrivals_append, List.mem_append] at h
    rcases h with h | h
    · obtain ⟨p, h1, h2⟩ := ih h
      exact ⟨p, h1, keep p h2⟩
    · obtain ⟨hown, hd, hrest⟩ := step_inv hs
      clear hrest hown
      by_cases hn : act.1 = n
      · obtain ⟨x, y⟩ := act
        dsimp only at hn
        subst hn
        rw [if_pos rfl] at h
        simp only [Spec.Node.arrivals, List.mem_filterMap, List.mem_singleton] at h
        obtain ⟨z, rfl, hz⟩ := h
        cases y <;> simp only [reduceCtorEq] at hz
        rename_i b' p
        split at hz
        · rename_i hb
          subst hb
          cases hz
          refine ⟨p, rfl, keep p ?_⟩
          rw [← (each e1).2]
          simpa [deliverable, ha] using hd
        · cases hz
      · rw [if_neg hn] at h
        simp [Spec.Node.arrivals] at h

/-- The address of a connection is unique. -/
theorem _root_.Rsomeip.Rt.Node.opened_unique {tr : Spec.Node.Trace} {s : Node.State}
    (e : Exec Node.step Node.init tr s) {c : Nat} {a b : Addr}
    (h1 : Spec.Ep.Shown (Spec.Node.app tr) (.opened c a))
    (h2 : Spec.Ep.Shown (Spec.Node.app tr) (.opened c b)) : a = b := by
  have ht := Node.told e
  have hU := (Udp.exec_inv (Node.parts e).2).2.1
  have h3 := (hU.conns _ (ht.opened c a h1).2).2.1
  have h4 := (hU.conns _ (ht.opened c b h2).2).2.1
  exact h3.symm.trans h4

/-- What a program hands to the operating system is a message somebody sent. -/
theorem _root_.Rsomeip.Rt.Node.out_sent {tr : Spec.Node.Trace} {s : Node.State}
    (e : Exec Node.step Node.init tr s) {a : Addr} {b : Bytes} (h : (a, b) ∈ Spec.Node.out tr) :
    ∃ m, SentTo (Spec.Node.app tr) a m ∧ b = Spec.Ep.wireForm m ∧ b.length ≤ 1400 := by
  obtain ⟨c, h1, h2, h3⟩ := (Node.told e).out a b h
  have eE := (Node.parts e).1
  obtain ⟨m, hm, rfl⟩ := List.mem_map.mp ((C74_order eE c).subset h2)
  refine ⟨m, ?_, rfl, h3⟩
  simp only [Spec.Ep.accepted, List.mem_filterMap] at hm
  obtain ⟨⟨x, o⟩, hx, ho⟩ := hm
  cases o <;> simp only [reduceCtorEq] at ho
  rename_i d m'
  split at ho
  · rename_i hd
    subst hd
    cases ho
    obtain ⟨t, u, htu⟩ := List.append_of_mem hx
    have eE' := eE
    rw [htu, List.append_cons] at eE'
    obtain ⟨s1, e1, _⟩ := eE'.split
    rcases C73_asked e1 with ⟨k, rfl⟩ | ⟨p, rfl⟩
    · obtain ⟨a', h4, h5⟩ := C73_stub e1
      have : a' = a := Node.opened_unique e (by rw [htu]; exact h5.mono _) h1
      subst this
      exact .inl ⟨t, u, k, d, htu, h4⟩
    · obtain ⟨_, i, id, a', h4, h5⟩ := C73_proxy e1
      have : a' = a := Node.opened_unique e (by rw [htu]; exact h5.mono _) h1
      subst this
      exact .inr ⟨p, d, i, id, hx, by rw [htu]; exact h4.mono _⟩
  · cases ho

/-- What is found in a sent datagram is the message that was sent. -/
theorem sent_contents {m m' : Msg} {ms : List Msg} (h : Spec.Frames (Spec.Ep.wireForm m) ms)
    (hm : m' ∈ ms) : Spec.frame m' = Spec.frame m ∧ Spec.Normal m' ∧ 8 + m.payload.length < 2 ^ 32 := by
  simp only [Spec.Ep.wireForm] at h
  split at h
  · rename_i hl
    let m₁ : Msg := { m with
      messageType := .fromU8 m.messageType.asU8, returnCode := .fromU8 m.returnCode.asU8 }
    have h1 : Spec.frame m₁ = Spec.frame m := by
      simp only [Spec.frame, Spec.frameWith, Spec.head, m₁, someip_types, someip_codes]
    have h2 : Spec.Normal m₁ := normal_mk ..
    have h3 : Spec.Frames (Spec.frame m) [m₁] := by
      have := Spec.Frames.cons m₁ h2 hl .nil
      rwa [h1, List.append_nil] at this
    rw [C52_unique h h3, List.mem_singleton] at hm
    subst hm
    exact ⟨h1, h2, hl⟩
  · generalize hb : Spec.be 2 m.service.toNat ++ Spec.be 2 m.method.toNat = b at h
    have hl : b.length = 4 := by rw [← hb]; simp
    cases h with
    | nil => cases hm
    | cut m n _ _ _ => rw [frameWith_length] at hl; omega
    | cons m _ _ _ => rw [List.length_append, frame_length] at hl; omega

/-- Different normal messages look different on the wire. -/
theorem frame_inj {m m' : Msg} (h : Spec.Normal m) (h' : Spec.Normal m')
    (hl : 8 + m.payload.length < 2 ^ 32) (hf : Spec.frame m = Spec.frame m') : m = m' := by
  have hl' : 8 + m'.payload.length < 2 ^ 32 := by
    have := congrArg List.length hf
    rw [frame_length, frame_length] at this
    omega
  have h1 := Spec.Frames.cons m h hl .nil
  have h2 := Spec.Frames.cons m' h' hl' .nil
  rw [← hf] at h2
  exact List.singleton_inj.mp (C52_unique h1 h2)

end Rsomeip.Rt.Net
