import Verif.Lemmas.Proto

/-! # C23–C26: message, request, client and session ids -/

namespace Rsomeip

open Spec Proto

/-- **C23.** Message ids and 32-bit numbers correspond one to one, the service in the upper half. -/
theorem C23_message_id_bijection :
    (∀ n, (MessageId.fromU32 n).asU32 = n) ∧ (∀ i, MessageId.fromU32 i.asU32 = i) ∧
    (∀ i : MessageId, i.asU32.toNat = i.service.val.toNat * 65536 + i.method.val.toNat) ∧
    (∀ n, (MessageId.fromU32 n).service.val.toNat = n.toNat / 65536 ∧
      (MessageId.fromU32 n).method.val.toNat = n.toNat % 65536) := by
  refine ⟨joinHalves_split, fun i => ?_, fun i => joinHalves_toNat _ _, fun n =>
    ⟨upperHalf_toNat n, lowerHalf_toNat n⟩⟩
  simp only [MessageId.fromU32, MessageId.asU32, upperHalf_join, lowerHalf_join]

/-- **C23.** Request ids and 32-bit numbers correspond one to one, the client in the upper half. -/
theorem C23_request_id_bijection :
    (∀ n, (RequestId.fromU32 n).asU32 = n) ∧ (∀ i, RequestId.fromU32 i.asU32 = i) ∧
    (∀ i : RequestId, i.asU32.toNat = i.client.val.toNat * 65536 + i.session.val.toNat) ∧
    (∀ n, (RequestId.fromU32 n).client.val.toNat = n.toNat / 65536 ∧
      (RequestId.fromU32 n).session.val.toNat = n.toNat % 65536) := by
  refine ⟨joinHalves_split, fun i => ?_, fun i => joinHalves_toNat _ _, fun n =>
    ⟨upperHalf_toNat n, lowerHalf_toNat n⟩⟩
  simp only [RequestId.fromU32, RequestId.asU32, upperHalf_join, lowerHalf_join]

/-- **C23.** The halves of an id are set independently, also seen as a number. -/
theorem C23_halves :
    (∀ (i : MessageId) (v : ServiceId),
      (i.withService v).asU32.toNat = v.val.toNat * 65536 + i.asU32.toNat % 65536) ∧
    (∀ (i : MessageId) (v : MethodId),
      (i.withMethod v).asU32.toNat = i.asU32.toNat / 65536 * 65536 + v.val.toNat) ∧
    (∀ (i : RequestId) (v : ClientId),
      (i.withClient v).asU32.toNat = v.val.toNat * 65536 + i.asU32.toNat % 65536) ∧
    (∀ (i : RequestId) (v : SessionId),
      (i.withSession v).asU32.toNat = i.asU32.toNat / 65536 * 65536 + v.val.toNat) := by
  refine ⟨fun i v => ?_, fun i v => ?_, fun i v => ?_, fun i v => ?_⟩
  · have := i.method.val.toNat_lt
    rw [C23_message_id_bijection.2.2.1, C23_message_id_bijection.2.2.1]
    simp only [MessageId.withService]
    omega
  · have := i.method.val.toNat_lt
    rw [C23_message_id_bijection.2.2.1, C23_message_id_bijection.2.2.1]
    simp only [MessageId.withMethod]
    omega
  · have := i.session.val.toNat_lt
    rw [C23_request_id_bijection.2.2.1, C23_request_id_bijection.2.2.1]
    simp only [RequestId.withClient]
    omega
  · have := i.session.val.toNat_lt
    rw [C23_request_id_bijection.2.2.1, C23_request_id_bijection.2.2.1]
    simp only [RequestId.withSession]
    omega

example : ((⟨⟨0x1234⟩, ⟨0x5678⟩⟩ : MessageId).withMethod ⟨0x8001⟩).asU32 = 0x12348001 := by decide
example : MessageId.fromU32 0x12345678 = ⟨⟨0x1234⟩, ⟨0x5678⟩⟩ := by decide
example : (⟨⟨0xabcd⟩, ⟨0x0001⟩⟩ : RequestId).asU32 = 0xabcd0001 := by decide

/-- **C23.** On the wire an id is its two halves in order, two bytes each, and decodes to itself
from such bytes whatever follows. -/
theorem C23_message_id_wire (i : MessageId) :
    (∀ d, MessageId.ser.serialize i ⟨d, none⟩ =
      (.ok 4, ⟨d ++ be 2 i.service.val.toNat ++ be 2 i.method.val.toNat, none⟩)) ∧
    MessageId.ser.sizeHint i = 4 ∧
    (∀ rest, MessageId.de (be 2 i.service.val.toNat ++ be 2 i.method.val.toNat ++ rest) =
      (.ok i, rest)) := by
  have hg := Ser.good_u32 i.asU32
  rw [C23_message_id_bijection.2.2.1 i, be4_join] at hg
  refine ⟨fun d => ?_, rfl, fun rest => ?_⟩
  · have := hg.grow d
    simpa [MessageId.ser] using this
  · have := (Dec.reads_u32 i.asU32).map MessageId.fromU32 rest
    rw [C23_message_id_bijection.2.2.1 i, be4_join, C23_message_id_bijection.2.1] at this
    exact this

/-- **C23.** The same for request ids. -/
theorem C23_request_id_wire (i : RequestId) :
    (∀ d, RequestId.ser.serialize i ⟨d, none⟩ =
      (.ok 4, ⟨d ++ be 2 i.client.val.toNat ++ be 2 i.session.val.toNat, none⟩)) ∧
    RequestId.ser.sizeHint i = 4 ∧
    (∀ rest, RequestId.de (be 2 i.client.val.toNat ++ be 2 i.session.val.toNat ++ rest) =
      (.ok i, rest)) := by
  have hg := Ser.good_u32 i.asU32
  rw [C23_request_id_bijection.2.2.1 i, be4_join] at hg
  refine ⟨fun d => ?_, rfl, fun rest => ?_⟩
  · have := hg.grow d
    simpa [RequestId.ser] using this
  · have := (Dec.reads_u32 i.asU32).map RequestId.fromU32 rest
    rw [C23_request_id_bijection.2.2.1 i, be4_join, C23_request_id_bijection.2.1] at this
    exact this

example : MessageId.ser.serialize ⟨⟨0x1234⟩, ⟨0x5678⟩⟩ ⟨[0xff], none⟩ =
    (.ok 4, ⟨[0xff, 0x12, 0x34, 0x56, 0x78], none⟩) := by decide
example : RequestId.de [0x12, 0x34, 0x56, 0x78, 0x9a] = (.ok ⟨⟨0x1234⟩, ⟨0x5678⟩⟩, [0x9a]) := by
  decide

theorem compare_u16 (a b : UInt16) : compare a b = compare a.toNat b.toNat := by
  rcases Nat.lt_trichotomy a.toNat b.toNat with h | h | h
  · rw [Nat.compare_eq_lt.mpr h]
    have h' : a < b := UInt16.lt_iff_toNat_lt.mpr h
    simp [compare, compareOfLessAndEq, h']
  · rw [Nat.compare_eq_eq.mpr h]
    have h' : a = b := UInt16.toNat_inj.mp h
    simp [compare, compareOfLessAndEq, h']
  · rw [Nat.compare_eq_gt.mpr h]
    have h1 : ¬ a < b := fun e => by have := UInt16.lt_iff_toNat_lt.mp e; omega
    have h2 : ¬ a = b := fun e => by subst e; omega
    simp [compare, compareOfLessAndEq, h1, h2]

theorem lex_eq (a b c d : UInt16) :
    (compare a c).then (compare b d) =
      compare (a.toNat * 65536 + b.toNat) (c.toNat * 65536 + d.toNat) := by
  have hb := b.toNat_lt
  have hd := d.toNat_lt
  rw [compare_u16, compare_u16]
  rcases Nat.lt_trichotomy a.toNat c.toNat with h | h | h
  · rw [Nat.compare_eq_lt.mpr h, Nat.compare_eq_lt.mpr
      (show a.toNat * 65536 + b.toNat < c.toNat * 65536 + d.toNat by omega)]; rfl
  · rw [Nat.compare_eq_eq.mpr h, h]
    simp only [Ordering.then]
    rcases Nat.lt_trichotomy b.toNat d.toNat with h' | h' | h'
    · rw [Nat.compare_eq_lt.mpr h', Nat.compare_eq_lt.mpr (by omega)]
    · rw [Nat.compare_eq_eq.mpr h', Nat.compare_eq_eq.mpr (by omega)]
    · rw [Nat.compare_eq_gt.mpr h', Nat.compare_eq_gt.mpr (by omega)]
  · rw [Nat.compare_eq_gt.mpr h, Nat.compare_eq_gt.mpr
      (show c.toNat * 65536 + d.toNat < a.toNat * 65536 + b.toNat by omega)]; rfl

/-- **C24.** Message ids are ordered like their numbers. -/
theorem C24_message_id_order (a b : MessageId) : a.cmp b = compare a.asU32.toNat b.asU32.toNat := by
  rw [MessageId.cmp, lex_eq, MessageId.asU32, MessageId.asU32, joinHalves_toNat, joinHalves_toNat]

/-- **C24.** Request ids are ordered like their numbers. -/
theorem C24_request_id_order (a b : RequestId) : a.cmp b = compare a.asU32.toNat b.asU32.toNat := by
  rw [RequestId.cmp, lex_eq, RequestId.asU32, RequestId.asU32, joinHalves_toNat, joinHalves_toNat]

example : (⟨⟨1⟩, ⟨0xffff⟩⟩ : MessageId).cmp ⟨⟨2⟩, ⟨0⟩⟩ = .lt := by decide

theorem pfx_toNat (c : ClientId) : c.pfx.toNat = c.val.toNat / 256 := by
  have := c.val.toNat_lt
  simp [ClientId.pfx, Nat.shiftRight_eq_div_pow]
  omega

theorem withPrefix_toNat (c : ClientId) (p : UInt8) :
    (c.withPrefix p).val.toNat = c.val.toNat ||| (p.toNat * 256) := by
  have := p.toNat_lt
  simp [ClientId.withPrefix, Nat.shiftLeft_eq]
  congr 1
  omega

/-- What `with_prefix` does for every client id: the prefixes are combined with "or", the low byte
stays. -/
theorem C25_prefix_or (c : ClientId) (p : UInt8) :
    (c.withPrefix p).pfx = c.pfx ||| p ∧
      (c.withPrefix p).val.toNat % 256 = c.val.toNat % 256 := by
  have hp := p.toNat_lt
  constructor
  · apply UInt8.toNat_inj.mp
    rw [pfx_toNat, withPrefix_toNat, UInt8.toNat_or, pfx_toNat,
      show (256 : Nat) = 2 ^ 8 from rfl, ← Nat.shiftRight_eq_div_pow, ← Nat.shiftRight_eq_div_pow,
      Nat.shiftRight_or_distrib, Nat.shiftRight_eq_div_pow (p.toNat * 2 ^ 8),
      Nat.mul_div_cancel _ (by decide)]
  · rw [withPrefix_toNat, show (256 : Nat) = 2 ^ 8 from rfl, Nat.or_mod_two_pow,
      Nat.mul_mod_left, Nat.or_zero]

/-- **C25**, the part that holds. Missing: client ids whose old prefix has bits outside the new
one, for which the claim is false (`C25_prefix_not_set`). -/
theorem C25_set_prefix_partial (c : ClientId) (p : UInt8) (h : c.pfx ||| p = p) :
    (c.withPrefix p).pfx = p ∧ (c.withPrefix p).val.toNat % 256 = c.val.toNat % 256 := by
  rw [(C25_prefix_or c p).1, h]
  exact ⟨rfl, (C25_prefix_or c p).2⟩

example : (⟨0x0034⟩ : ClientId).pfx ||| 0x12 = 0x12 := by decide
example : (⟨0x0034⟩ : ClientId).withPrefix 0x12 = ⟨0x1234⟩ := by decide

/-- **C25** fails in general: setting the prefix of `0x0156` to `0x02` gives prefix `0x03`. -/
theorem C25_prefix_not_set :
    ¬ ∀ (c : ClientId) (p : UInt8), (c.withPrefix p).pfx = p := by
  intro h
  have := h ⟨0x0156⟩ 0x02
  revert this
  decide

/-! ### Sessions -/

/-- The session id after `n` calls of `increment`. -/
def Spec.after (s : SessionId) : Nat → SessionId
  | 0 => s
  | n + 1 => (Spec.after s n).increment.2

theorem increment_toNat (s : SessionId) :
    s.increment.2.val.toNat = s.val.toNat % 65535 + 1 := by
  have := s.val.toNat_lt
  simp only [SessionId.increment]
  split
  · rename_i h
    have h := congrArg UInt16.toNat h
    simp at h
    simp
    omega
  · rename_i h
    have h : ¬ (s.val + 1).toNat = (0 : UInt16).toNat := fun e => h (UInt16.toNat_inj.mp e)
    simp at h
    simp
    omega

theorem after_toNat (s : SessionId) (h : s.isEnabled = true) (n : Nat) :
    (after s n).val.toNat = (s.val.toNat - 1 + n) % 65535 + 1 := by
  have hs : 0 < s.val.toNat := by
    simpa [SessionId.isEnabled, UInt16.lt_iff_toNat_lt] using h
  have hlt := s.val.toNat_lt
  induction n with
  | zero => simp only [after]; omega
  | succ n ih => rw [after, increment_toNat, ih]; omega

/-- **C26.** `increment` returns the old id; an enabled id stays enabled after any number of
calls; from any id, a single call leads to an enabled one. -/
theorem C26_stays_enabled (s : SessionId) :
    s.increment.1 = s ∧ s.increment.2.isEnabled = true ∧
    (s.isEnabled = true → ∀ n, (after s n).isEnabled = true) := by
  refine ⟨rfl, ?_, fun h n => ?_⟩
  · have := increment_toNat s
    simp only [SessionId.isEnabled, decide_eq_true_eq, UInt16.lt_iff_toNat_lt, gt_iff_lt]
    rw [this]
    exact Nat.succ_pos _
  · have := after_toNat s h n
    simp only [SessionId.isEnabled, decide_eq_true_eq, UInt16.lt_iff_toNat_lt, gt_iff_lt]
    rw [this]
    exact Nat.succ_pos _

/-- **C26.** Two ids of one session sequence are equal exactly if their positions differ by a
multiple of 65535: any 65535 consecutive ids are distinct and the next one repeats the first. -/
theorem C26_period (s : SessionId) (h : s.isEnabled = true) (i j : Nat) :
    after s i = after s j ↔ i % 65535 = j % 65535 := by
  have hi := after_toNat s h i
  have hj := after_toNat s h j
  constructor
  · intro e
    rw [e] at hi
    omega
  · intro e
    have : (after s i).val = (after s j).val := by
      apply UInt16.toNat_inj.mp
      omega
    calc after s i = ⟨(after s i).val⟩ := rfl
      _ = ⟨(after s j).val⟩ := by rw [this]
      _ = after s j := rfl

/-- **C26.** Every enabled id occurs among any 65535 consecutive ids. -/
theorem C26_all_ids (s t : SessionId) (h : s.isEnabled = true) (ht : t.isEnabled = true) :
    ∃ n < 65535, after s n = t := by
  have hs : 0 < s.val.toNat := by
    simpa [SessionId.isEnabled, UInt16.lt_iff_toNat_lt] using h
  have ht' : 0 < t.val.toNat := by
    simpa [SessionId.isEnabled, UInt16.lt_iff_toNat_lt] using ht
  have hslt := s.val.toNat_lt
  have htlt := t.val.toNat_lt
  refine ⟨(t.val.toNat + 65535 - s.val.toNat) % 65535, Nat.mod_lt _ (by decide), ?_⟩
  have := after_toNat s h ((t.val.toNat + 65535 - s.val.toNat) % 65535)
  have hv : (after s ((t.val.toNat + 65535 - s.val.toNat) % 65535)).val = t.val := by
    apply UInt16.toNat_inj.mp
    omega
  generalize after s ((t.val.toNat + 65535 - s.val.toNat) % 65535) = u at hv
  cases u
  cases t
  simp only at hv
  rw [hv]

/-- **C26.** Starting with session handling enabled, the ids are 1, 2, …, 65535, 1, 2, …; disabled
is 0, which is not enabled. -/
theorem C26_numbers :
    (∀ n, (after SessionId.enabled n).val.toNat = n % 65535 + 1) ∧
    SessionId.enabled.isEnabled = true ∧
    SessionId.disabled.val = 0 ∧ SessionId.disabled.isEnabled = false := by
  refine ⟨fun n => ?_, by decide, by decide, by decide⟩
  rw [after_toNat _ (by decide) n]
  simp [SessionId.enabled]

example : SessionId.enabled.isEnabled = true := by decide
example : SessionId.disabled.isEnabled = false := by decide
example : after ⟨0xfffe⟩ 2 = ⟨1⟩ := by decide

end Rsomeip
