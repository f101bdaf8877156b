import Verif.Lemmas.Proto
import Verif.Someip.Message

/-! # C27, C28: message types, return codes and flags -/

namespace Rsomeip

open Spec Proto

/-- The numbers of the standard message types (SOME/IP protocol, table of message types). -/
def Spec.typeNumbers : List (Proto.MessageType × UInt8) :=
  [(.request, 0x00), (.requestNoReturn, 0x01), (.notification, 0x02), (.response, 0x80),
    (.error, 0x81)]

/-- The numbers of the message types known to the `rsomeip` crate: the standard ones and the same
with the TP flag `0x20`. -/
def Spec.typeNumbersTp : List (Someip.MessageType × UInt8) :=
  [(.request, 0x00), (.requestNoReturn, 0x01), (.notification, 0x02), (.response, 0x80),
    (.error, 0x81), (.tpRequest, 0x20), (.tpRequestNoReturn, 0x21), (.tpNotification, 0x22),
    (.tpResponse, 0xa0), (.tpError, 0xa1)]

/-- The sixteen standard return codes of the `rsomeip` crate in the order of their numbers. -/
def Spec.standardCodes' : List Someip.ReturnCode :=
  [.ok, .notOk, .unknownService, .unknownMethod, .notReady, .notReachable, .timeout,
    .wrongProtocolVersion, .wrongInterfaceVersion, .malformedMessage, .wrongMessageType,
    .e2eRepeated, .e2eWrongSequence, .e2e, .e2eNotAvailable, .e2eNoNewData]

/-- **C27.** Message types of `rsomeip-proto`: no byte is lost, a decoded type is never an alias,
standard types have their numbers, all other numbers are `Unknown` with that number. -/
theorem C27_message_type :
    (∀ x, (Proto.MessageType.fromU8 x).asU8 = x) ∧
    (∀ t, (∃ x, Proto.MessageType.fromU8 x = t) → Proto.MessageType.fromU8 t.asU8 = t) ∧
    (∀ p ∈ typeNumbers, p.1.asU8 = p.2 ∧ Proto.MessageType.fromU8 p.2 = p.1) ∧
    (∀ x, x ∉ typeNumbers.map Prod.snd → Proto.MessageType.fromU8 x = .unknown x) := by
  have h : ∀ x, (Proto.MessageType.fromU8 x).asU8 = x := by
    intro x
    simp only [Proto.MessageType.fromU8]
    repeat' split
    all_goals simp_all [Proto.MessageType.asU8]
  refine ⟨h, ?_, by decide, ?_⟩
  · rintro t ⟨x, rfl⟩
    rw [h]
  · intro x hx
    simp only [typeNumbers, List.map_cons, List.map_nil, List.mem_cons, List.not_mem_nil, or_false,
      not_or] at hx
    simp [Proto.MessageType.fromU8, hx]

/-- **C27.** Return codes of `rsomeip-proto`: no byte is lost, a decoded code is never an alias, the
standard codes have their numbers, 0x10..=0x5e are `Reserved`, the rest `Other`. -/
theorem C27_return_code :
    (∀ x, (Proto.ReturnCode.fromU8 x).asU8 = x) ∧
    (∀ c, (∃ x, Proto.ReturnCode.fromU8 x = c) → Proto.ReturnCode.fromU8 c.asU8 = c) ∧
    (∀ (n : Nat) (h : n < standardCodes.length), (standardCodes[n]).asU8 = UInt8.ofNat n ∧
      Proto.ReturnCode.fromU8 (UInt8.ofNat n) = standardCodes[n]) ∧
    (∀ x : UInt8, 0x10 ≤ x → x ≤ 0x5e → Proto.ReturnCode.fromU8 x = .reserved x) ∧
    (∀ x : UInt8, 0x5f ≤ x → Proto.ReturnCode.fromU8 x = .other x) := by
  have h : ∀ x, (Proto.ReturnCode.fromU8 x).asU8 = x := fun x => by
    rw [← codeOf_eq, ← codeNumber_eq, codeNumber_codeOf]
  refine ⟨h, ?_, by decide +kernel, ?_, ?_⟩
  · rintro t ⟨x, rfl⟩
    rw [h]
  · exact forall_u8 (p := fun x => 0x10 ≤ x → x ≤ 0x5e → Proto.ReturnCode.fromU8 x = .reserved x)
      (by decide +kernel)
  · exact forall_u8 (p := fun x => 0x5f ≤ x → Proto.ReturnCode.fromU8 x = .other x)
      (by decide +kernel)

/-- **C27.** Message types of `rsomeip`. -/
theorem C27_rsomeip_message_type :
    (∀ x, (Someip.MessageType.fromU8 x).asU8 = x) ∧
    (∀ t, (∃ x, Someip.MessageType.fromU8 x = t) → Someip.MessageType.fromU8 t.asU8 = t) ∧
    (∀ p ∈ typeNumbersTp, p.1.asU8 = p.2 ∧ Someip.MessageType.fromU8 p.2 = p.1) ∧
    (∀ x, x ∉ typeNumbersTp.map Prod.snd → Someip.MessageType.fromU8 x = .unknown x) := by
  have h : ∀ x, (Someip.MessageType.fromU8 x).asU8 = x :=
    forall_u8 (p := fun x => (Someip.MessageType.fromU8 x).asU8 = x) (by decide +kernel)
  refine ⟨h, ?_, by decide, ?_⟩
  · rintro t ⟨x, rfl⟩
    rw [h]
  · exact forall_u8 (p := fun x => x ∉ typeNumbersTp.map Prod.snd →
      Someip.MessageType.fromU8 x = .unknown x) (by decide +kernel)

/-- **C27.** Return codes of `rsomeip`. -/
theorem C27_rsomeip_return_code :
    (∀ x, (Someip.ReturnCode.fromU8 x).asU8 = x) ∧
    (∀ c, (∃ x, Someip.ReturnCode.fromU8 x = c) → Someip.ReturnCode.fromU8 c.asU8 = c) ∧
    (∀ (n : Nat) (h : n < standardCodes'.length), (standardCodes'[n]).asU8 = UInt8.ofNat n ∧
      Someip.ReturnCode.fromU8 (UInt8.ofNat n) = standardCodes'[n]) ∧
    (∀ x : UInt8, 0x10 ≤ x → x ≤ 0x5e → Someip.ReturnCode.fromU8 x = .reserved x) ∧
    (∀ x : UInt8, 0x5f ≤ x → Someip.ReturnCode.fromU8 x = .unknown x) := by
  have h : ∀ x, (Someip.ReturnCode.fromU8 x).asU8 = x :=
    forall_u8 (p := fun x => (Someip.ReturnCode.fromU8 x).asU8 = x) (by decide +kernel)
  refine ⟨h, ?_, by decide +kernel, ?_, ?_⟩
  · rintro t ⟨x, rfl⟩
    rw [h]
  · exact forall_u8 (p := fun x => 0x10 ≤ x → x ≤ 0x5e → Someip.ReturnCode.fromU8 x = .reserved x)
      (by decide +kernel)
  · exact forall_u8 (p := fun x => 0x5f ≤ x → Someip.ReturnCode.fromU8 x = .unknown x)
      (by decide +kernel)

/-- **C27.** Each enumeration is read from and written to the wire as its single byte. -/
theorem C27_wire :
    (∀ (t : Proto.MessageType) d, Proto.MessageType.ser.serialize t ⟨d, none⟩ =
      (.ok 1, ⟨d ++ [t.asU8], none⟩)) ∧
    (∀ (c : Proto.ReturnCode) d, Proto.ReturnCode.ser.serialize c ⟨d, none⟩ =
      (.ok 1, ⟨d ++ [c.asU8], none⟩)) ∧
    (∀ x rest, Proto.MessageType.de (x :: rest) = (.ok (Proto.MessageType.fromU8 x), rest)) ∧
    (∀ x rest, Proto.ReturnCode.de (x :: rest) = (.ok (Proto.ReturnCode.fromU8 x), rest)) ∧
    (∀ (t : Someip.MessageType) d, Someip.MessageType.ser.serialize t ⟨d, none⟩ =
      (.ok 1, ⟨d ++ [t.asU8], none⟩)) ∧
    (∀ (c : Someip.ReturnCode) d, Someip.ReturnCode.ser.serialize c ⟨d, none⟩ =
      (.ok 1, ⟨d ++ [c.asU8], none⟩)) ∧
    (∀ x rest, Someip.MessageType.de (x :: rest) = (.ok (Someip.MessageType.fromU8 x), rest)) ∧
    (∀ x rest, Someip.ReturnCode.de (x :: rest) = (.ok (Someip.ReturnCode.fromU8 x), rest)) :=
  ⟨fun t d => (Ser.good_u8 t.asU8).grow d, fun t d => (Ser.good_u8 t.asU8).grow d,
    fun x => (Dec.reads_u8 x).map _, fun x => (Dec.reads_u8 x).map _,
    fun t d => (Ser.good_u8 t.asU8).grow d, fun t d => (Ser.good_u8 t.asU8).grow d,
    fun x => (Dec.reads_u8 x).map _, fun x => (Dec.reads_u8 x).map _⟩

example : Proto.MessageType.fromU8 0x7f = .unknown 0x7f := by decide
example : Proto.ReturnCode.fromU8 0x5e = .reserved 0x5e := by decide
example : Someip.ReturnCode.fromU8 0x5f = .unknown 0x5f := by decide

/-- Values a program can build but decoding never yields are written like the standard value with
the same number: the enumerations are not injective on such values. -/
theorem C27_aliases :
    (Proto.MessageType.unknown 0x80).asU8 = Proto.MessageType.response.asU8 ∧
    (Proto.ReturnCode.reserved 0x00).asU8 = Proto.ReturnCode.ok.asU8 ∧
    (Someip.MessageType.unknown 0x80).asU8 = Someip.MessageType.response.asU8 ∧
    (Someip.ReturnCode.unknown 0x10).asU8 = (Someip.ReturnCode.reserved 0x10).asU8 := by decide

/-! ### Flags -/

/-- Bit `i` of a byte. -/
def Spec.bit (x : UInt8) (i : Nat) : Bool := x.toNat.testBit i

theorem bit_or (x y : UInt8) (i : Nat) : bit (x ||| y) i = (bit x i || bit y i) := by
  simp [bit]

theorem bit_and_not (x y : UInt8) (i : Nat) : bit (x &&& ~~~y) i = (bit x i && !bit y i) := by
  by_cases hi : i < 8
  · simp only [bit, ← UInt8.toNat_toBitVec, BitVec.testBit_toNat, UInt8.toBitVec_and,
      UInt8.toBitVec_not, BitVec.getLsbD_and, BitVec.getLsbD_not, hi, decide_true, Bool.true_and]
  · have hx : bit x i = false := by
      rw [bit]
      exact Nat.testBit_lt_two_pow (Nat.lt_of_lt_of_le x.toNat_lt
        (Nat.pow_le_pow_right (by decide) (by omega)))
    simp only [bit, UInt8.toNat_and, Nat.testBit_and]
    rw [show x.toNat.testBit i = false from hx]
    simp

/-- **C28.** `with_flags` sets or clears exactly the given bits. -/
theorem C28_with_flags (f : MessageTypeField) (flags : UInt8) (on : Bool) (i : Nat) :
    bit (f.withFlags flags on).val i = if bit flags i then on else bit f.val i := by
  cases on
  · simp only [MessageTypeField.withFlags, Bool.false_eq_true, if_false, bit_and_not]
    cases bit flags i <;> simp
  · simp only [MessageTypeField.withFlags, if_true, bit_or]
    cases bit flags i <;> simp

/-- **C28.** `is_tp` is bit 5, `flags` is that bit alone. -/
theorem C28_is_tp (f : MessageTypeField) :
    f.isTp = bit f.val 5 ∧ f.flags = if bit f.val 5 then 0x20 else 0 := by
  obtain ⟨x⟩ := f
  exact forall_u8 (p := fun x => (⟨x⟩ : MessageTypeField).isTp = bit x 5 ∧
    (⟨x⟩ : MessageTypeField).flags = if bit x 5 then 0x20 else 0) (by decide +kernel) x

/-- **C28.** The type shown does not depend on the TP flag: two fields differing at most in bit 5
have the same type, and conversely a type determines the other seven bits. -/
theorem C28_type_ignores_flag (f g : MessageTypeField) :
    f.asType = g.asType ↔ ∀ i, i ≠ 5 → bit f.val i = bit g.val i := by
  have key : ∀ x : UInt8, ∀ i : Nat, bit (x &&& ~~~MessageTypeField.allFlags) i =
      (bit x i && !decide (i = 5)) := by
    intro x i
    rw [bit_and_not]
    congr 2
    by_cases hi : i < 8
    · have : ∀ i : Fin 8, bit MessageTypeField.allFlags i.1 = decide (i.1 = 5) := by decide
      exact this ⟨i, hi⟩
    · rw [bit, Nat.testBit_lt_two_pow (Nat.lt_of_lt_of_le (UInt8.toNat_lt _)
        (Nat.pow_le_pow_right (by decide) (by omega)))]
      simp
      omega
  have inj : ∀ x y : UInt8, Proto.MessageType.fromU8 x = Proto.MessageType.fromU8 y → x = y :=
    fun x y h => by rw [← C27_message_type.1 x, h, C27_message_type.1]
  constructor
  · intro h i hi
    have := inj _ _ h
    have := congrArg (bit · i) this
    simpa [key, hi] using this
  · intro h
    simp only [MessageTypeField.asType]
    congr 1
    apply UInt8.toNat_inj.mp
    apply Nat.eq_of_testBit_eq
    intro i
    have hf := key f.val i
    have hg := key g.val i
    rw [show Nat.testBit _ i = _ from hf, show Nat.testBit _ i = _ from hg]
    by_cases hi : i = 5
    · simp [hi]
    · simp [h i hi]

/-- **C28.** The five standard types survive `from_type`/`as_type`; building a field or a header
from them leaves the TP flag clear, whatever it was before. -/
theorem C28_standard_types (p : Proto.MessageType × UInt8) (hp : p ∈ typeNumbers) :
    (MessageTypeField.fromType p.1).asType = p.1 ∧
    (∀ h : Header, (h.withMessageType p.1).messageType = ⟨p.2⟩ ∧
      (h.withMessageType p.1).messageType.isTp = false) ∧
    (∀ (β : Type) (m : Message β), (m.withMessageType p.1).messageType = p.1 ∧
      (m.withMessageType p.1).header.messageType.isTp = false) := by
  have key : ∀ p ∈ typeNumbers, MessageTypeField.fromType p.1 = ⟨p.2⟩ ∧
      (MessageTypeField.fromType p.1).asType = p.1 ∧
      (MessageTypeField.fromType p.1).isTp = false := by decide
  obtain ⟨k1, k2, k3⟩ := key p hp
  exact ⟨k2, fun h => ⟨k1, k3⟩, fun β m => ⟨k2, k3⟩⟩

example : ((⟨0x80⟩ : MessageTypeField).withFlags 0x20 true) = ⟨0xa0⟩ := by decide
example : (⟨0xa0⟩ : MessageTypeField).asType = .response := by decide
example : ((⟨0xa0⟩ : MessageTypeField).withFlags 0x20 false) = ⟨0x80⟩ := by decide

end Rsomeip
