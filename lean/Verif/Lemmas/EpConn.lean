import Verif.Lemmas.EpWire

/-! # Who owns the handles of a connection -/

namespace Rsomeip.Rt.Ep

open Someip (InterfaceId)
open Spec Spec.Ep

theorem Lis.holdsConn_iff (l : Lis) (c : Nat) : l.holdsConn c = true ↔
    (∃ a, (a, c) ∈ l.conns.entries) ∨ l.pc = .share c := by
  simp only [Lis.holdsConn, Bool.or_eq_true, List.any_eq_true, decide_eq_true_eq]
  refine or_congr ⟨?_, ?_⟩ .rfl
  · rintro ⟨⟨a, d⟩, h, rfl⟩
    exact ⟨a, h⟩
  · rintro ⟨a, h⟩
    exact ⟨_, h, rfl⟩

theorem Stub.holdsConn_iff (k : Stub) (c : Nat) : k.holdsConn c = true ↔
    (∃ a, (a, c) ∈ k.conns.entries) ∨ (∃ a m, k.pc = .share a m c) ∨
      ∃ a m, k.pc = .sending a m c := by
  obtain ⟨i, l, al, conns, pc⟩ := k
  simp only [Stub.holdsConn, Bool.or_eq_true, List.any_eq_true]
  refine or_congr ⟨?_, ?_⟩ ?_
  · rintro ⟨⟨a, d⟩, h, h'⟩
    have := of_decide_eq_true h'
    dsimp only at this
    exact ⟨a, this ▸ h⟩
  · rintro ⟨a, h⟩
    exact ⟨_, h, by simp⟩
  · cases pc <;> simp

theorem holdsConn_share (id : InterfaceId) (a : Addr) (d c : Nat) :
    (EpPc.proxyShare id a d).holdsConn c = true ↔ d = c := by simp [EpPc.holdsConn]

theorem holdsConn_take (id : InterfaceId) (a : Addr) (d i c : Nat) :
    (EpPc.proxyTake id a d i).holdsConn c = true ↔ d = c := by simp [EpPc.holdsConn]

/-- Somebody owns a handle of connection `c`. -/
def HeldConn (s : State) (c : Nat) : Prop :=
  s.pc.holdsConn c = true ∨ (∃ l, (s.liss l).holdsConn c = true) ∨
    (∃ k, (s.stubs k).holdsConn c = true) ∨ ∃ p, (s.proxies p).alive = true ∧ (s.proxies p).conn = c

theorem connStrong_iff {s : State} (hf : Fresh s) (c : Nat) :
    s.connStrong c = true ↔ HeldConn s c := by
  simp only [State.connStrong, HeldConn, Bool.or_eq_true, List.any_eq_true, List.mem_range, or_assoc,
    Bool.and_eq_true, decide_eq_true_eq]
  refine or_congr .rfl (or_congr ⟨fun ⟨c, _, h⟩ => ⟨c, h⟩, fun ⟨l, h⟩ => ⟨l, ?_, h⟩⟩
    (or_congr ⟨fun ⟨l, _, h⟩ => ⟨l, h⟩, fun ⟨k, h⟩ => ⟨k, ?_, h⟩⟩
      ⟨fun ⟨l, _, h⟩ => ⟨l, h⟩, fun ⟨p, h⟩ => ⟨p, ?_, h⟩⟩))
  · apply Decidable.byContradiction
    intro hn
    rw [hf.liss l (Nat.not_lt.mp hn)] at h
    exact absurd h (by simp [Lis.holdsConn, Map.empty])
  · apply Decidable.byContradiction
    intro hn
    rw [hf.stubs k (Nat.not_lt.mp hn)] at h
    exact absurd h (by simp [Stub.holdsConn, Map.empty])
  · exact proxy_lt hf h.1

theorem connStrong_false {s : State} (hf : Fresh s) {c : Nat} (h : s.connStrong c = false) :
    ¬ HeldConn s c := by
  rw [← connStrong_iff hf c, h]
  exact Bool.false_ne_true

theorem peerLocked_iff {s : State} (hf : Fresh s) (a : Addr) : s.peerLocked a = true ↔
    ∃ k b m c, (s.stubs k).pc = .sending b m c ∧ s.peerBucket b = s.peerBucket a := by
  simp only [State.peerLocked, List.any_eq_true, List.mem_range]
  constructor
  · rintro ⟨k, _, h⟩
    cases hp : (s.stubs k).pc with
    | sending b m c => simp only [hp, decide_eq_true_eq] at h; exact ⟨k, b, m, c, hp, h⟩
    | _ => simp [hp] at h
  · rintro ⟨k, b, m, c, h, hb⟩
    refine ⟨k, ?_, by simp [h, hb]⟩
    apply Decidable.byContradiction
    intro hn
    rw [hf.stubs k (Nat.not_lt.mp hn)] at h
    cases h

theorem peerLocked_false {s : State} (hf : Fresh s) {a : Addr} (h : s.peerLocked a = false)
    (k : Nat) (m : Msg) (c : Nat) : (s.stubs k).pc ≠ .sending a m c := by
  intro hk
  have := (peerLocked_iff hf a).mpr ⟨k, a, m, c, hk, rfl⟩
  rw [h] at this
  cases this

theorem peerLocked_bucket {s : State} (hf : Fresh s) {a b : Addr} (h : s.peerLocked a = false)
    {k : Nat} {m : Msg} {c : Nat} (hk : (s.stubs k).pc = .sending b m c) :
    s.peerBucket b ≠ s.peerBucket a := by
  intro hb
  have := (peerLocked_iff hf a).mpr ⟨k, b, m, c, hk, hb⟩
  rw [h] at this
  cases this

theorem not_peerLocked {s : State} (hf : Fresh s) {a : Addr}
    (h : ∀ k b m c, (s.stubs k).pc = .sending b m c → s.peerBucket b ≠ s.peerBucket a) :
    s.peerLocked a = false := by
  cases hp : s.peerLocked a with
  | false => rfl
  | true =>
    obtain ⟨k, b, m, c, hk, hb⟩ := (peerLocked_iff hf a).mp hp
    exact absurd hb (h k b m c hk)

theorem epStrong_iff {s : State} (hf : Fresh s) : s.epStrong = true ↔
    s.handles = true ∨ ∃ k a m, (s.stubs k).pc = .asking a m ∨ (∃ t, (s.stubs k).pc = .asked a m t) ∨
      ∃ c, (s.stubs k).pc = .share a m c := by
  simp only [State.epStrong, Bool.or_eq_true, List.any_eq_true, List.mem_range]
  refine or_congr .rfl ⟨?_, ?_⟩
  · rintro ⟨k, _, h⟩
    cases hp : (s.stubs k).pc with
    | asking a m => exact ⟨k, a, m, .inl hp⟩
    | asked a m t => exact ⟨k, a, m, .inr (.inl ⟨t, hp⟩)⟩
    | share a m c => exact ⟨k, a, m, .inr (.inr ⟨c, hp⟩)⟩
    | _ => simp [hp] at h
  · rintro ⟨k, a, m, h⟩
    refine ⟨k, ?_, by rcases h with h | ⟨t, h⟩ | ⟨c, h⟩ <;> simp [h]⟩
    apply Decidable.byContradiction
    intro hn
    rw [hf.stubs k (Nat.not_lt.mp hn)] at h
    rcases h with h | ⟨t, h⟩ | ⟨c, h⟩ <;> cases h

theorem lisStrong_iff {s : State} (hf : Fresh s) (l : Nat) : s.lisStrong l = true ↔
    s.pc.holdsLis l = true ∨ ∃ k, (s.stubs k).alive = true ∧ (s.stubs k).lis = l := by
  simp only [State.lisStrong, Bool.or_eq_true, List.any_eq_true, List.mem_range, Bool.and_eq_true,
    decide_eq_true_eq]
  exact or_congr .rfl ⟨fun ⟨k, _, h⟩ => ⟨k, h⟩, fun ⟨k, h⟩ => ⟨k, stub_lt hf h.1, h⟩⟩

/-- What the user holds. -/
theorem held_eq {dg : Bool} {tr : Trace} {s : State} (e : Exec (step dg) init tr s) :
    s.handles = held tr := by
  induction e with
  | nil => rfl
  | @snoc tr s s' a o e hs ih =>
    have : held (tr ++ [(a, o)]) = (match (a, o) with
      | (.close, _) => false
      | (.upgrade, .upgraded true) => true
      | _ => held tr) := by
      rw [held, List.foldl_append]
      rfl
    rw [this, ← ih]
    cases move_of_step hs <;> rfl

end Rsomeip.Rt.Ep
