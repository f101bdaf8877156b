import Verif.Someip.Message
import Verif.Lemmas.Proto

/-! # Lemmas about the messages of the `rsomeip` crate -/

namespace Rsomeip.Someip

open Spec

variable {β : Type}

/-- The eight header bytes of an `rsomeip` message. -/
def headBytes (client session : UInt16) (protocol interface type code : UInt8) : Bytes :=
  be 2 client.toNat ++ be 2 session.toNat ++ [protocol, interface, type, code]

theorem headBytes_length (c s : UInt16) (p i t r : UInt8) : (headBytes c s p i t r).length = 8 := by
  simp [headBytes]

/-- The tuple written behind the length field. -/
def tail (b : Ser β) : Ser (UInt16 × UInt16 × UInt8 × UInt8 × MessageType × ReturnCode × β × Unit) :=
  Ser.tcons Ser.u16 (Ser.tcons Ser.u16 (Ser.tcons Ser.u8 (Ser.tcons Ser.u8
    (Ser.tcons MessageType.ser (Ser.tcons ReturnCode.ser (Ser.tcons b Ser.tnil))))))

theorem good_tail {b : Ser β} {m : Message β} {bs : Bytes} (h : Payload b m.payload bs) :
    (tail b).Good (m.client, m.session, m.protocol, m.interface, m.messageType, m.returnCode,
      m.payload, ()) (headBytes m.client m.session m.protocol m.interface m.messageType.asU8
        m.returnCode.asU8 ++ bs) := by
  have hg := Ser.good_tcons (v := (m.client, m.session, m.protocol, m.interface, m.messageType,
      m.returnCode, m.payload, ())) (Ser.good_u16 m.client)
    (Ser.good_tcons (v := (m.session, m.protocol, m.interface, m.messageType, m.returnCode,
      m.payload, ())) (Ser.good_u16 m.session)
    (Ser.good_tcons (v := (m.protocol, m.interface, m.messageType, m.returnCode,
      m.payload, ())) (Ser.good_u8 m.protocol)
    (Ser.good_tcons (v := (m.interface, m.messageType, m.returnCode,
      m.payload, ())) (Ser.good_u8 m.interface)
    (Ser.good_tcons (v := (m.messageType, m.returnCode, m.payload, ()))
      (show MessageType.ser.Good m.messageType [m.messageType.asU8] from Ser.good_u8 _)
    (Ser.good_tcons (v := (m.returnCode, m.payload, ()))
      (show ReturnCode.ser.Good m.returnCode [m.returnCode.asU8] from Ser.good_u8 _)
    (Ser.good_tcons (v := (m.payload, ())) h.1 (Ser.good_tnil ())))))))
  simpa [headBytes, tail] using hg

theorem hint_tail {b : Ser β} {m : Message β} {bs : Bytes} (h : Payload b m.payload bs) :
    (tail b).sizeHint (m.client, m.session, m.protocol, m.interface, m.messageType, m.returnCode,
      m.payload, ()) = 8 + bs.length := by
  show 2 + (2 + (1 + (1 + (1 + (1 + (b.sizeHint m.payload + 0)))))) = _
  rw [h.2]
  omega

theorem good_id (m : Message β) :
    Ser.u32.Good m.id (be 2 m.service.toNat ++ be 2 m.method.toNat) := by
  have := Ser.good_u32 m.id
  rwa [show m.id.toNat = _ from joinHalves_toNat m.service m.method, be4_join] at this

theorem good_someip {b : Ser β} {m : Message β} {bs : Bytes} (h : Payload b m.payload bs)
    (hl : 8 + bs.length < 2 ^ 32) :
    (Message.ser b).Good m (be 2 m.service.toNat ++ be 2 m.method.toNat ++ be 4 (8 + bs.length) ++
      headBytes m.client m.session m.protocol m.interface m.messageType.asU8
        m.returnCode.asU8 ++ bs) := by
  have hlen := Ser.serializeLen_ok .u32 (by rw [hint_tail h]; simp [maxLen]; omega) (good_tail h)
  rw [hint_tail h] at hlen
  have := (good_id m).bind (f := fun s1 => do
    let s2 ← (tail b).serializeLen .u32 (m.client, m.session, m.protocol, m.interface,
      m.messageType, m.returnCode, m.payload, ())
    (pure (s1 + s2) : W Nat)) (hlen.bind (W.writes_pure _))
  simp only [List.append_nil, lenWidth] at this
  simp only [Ser.Good]
  have e2 : (be 2 m.service.toNat ++ be 2 m.method.toNat).length +
      (4 + (headBytes m.client m.session m.protocol m.interface m.messageType.asU8
        m.returnCode.asU8 ++ bs).length) = (be 2 m.service.toNat ++ be 2 m.method.toNat ++
          be 4 (8 + bs.length) ++ headBytes m.client m.session m.protocol m.interface
            m.messageType.asU8 m.returnCode.asU8 ++ bs).length := by
    simp only [List.length_append, be_length]
    omega
  rw [e2] at this
  simp only [List.append_assoc] at this ⊢
  exact this

theorem tooLong {b : Ser β} {m : Message β} {bs : Bytes} (h : Payload b m.payload bs)
    (hl : 2 ^ 32 ≤ 8 + bs.length) :
    ((Message.ser b).serialize m).Writes (be 2 m.service.toNat ++ be 2 m.method.toNat)
      (.err (.invalidLength (8 + bs.length) (2 ^ 32 - 1))) := by
  have hlen := Ser.serializeLen_err (s := tail b) (v := (m.client, m.session, m.protocol,
    m.interface, m.messageType, m.returnCode, m.payload, ())) .u32
    (by rw [hint_tail h]; simp [maxLen]; omega)
  rw [hint_tail h] at hlen
  have := (good_id m).bind (f := fun s1 => do
    let s2 ← (tail b).serializeLen .u32 (m.client, m.session, m.protocol, m.interface,
      m.messageType, m.returnCode, m.payload, ())
    (pure (s1 + s2) : W Nat)) hlen.bind_err
  rw [List.append_nil] at this
  exact this

theorem hint_someip {b : Ser β} {m : Message β} {bs : Bytes} (h : Payload b m.payload bs) :
    (Message.ser b).sizeHint m = 16 + bs.length := by
  show (2 + 2) + (4 + 2 + 2 + 1 + 1 + 1 + 1 + b.sizeHint m.payload) = _
  rw [h.2]
  omega

/-- The tuple read behind the length field. -/
def tailDe (d : Dec β) : Dec (UInt32 × UInt8 × UInt8 × MessageType × ReturnCode × β × Unit) :=
  Dec.tcons Dec.u32 (Dec.tcons Dec.u8 (Dec.tcons Dec.u8 (Dec.tcons MessageType.de
      (Dec.tcons ReturnCode.de (Dec.tcons d Dec.tnil)))))

theorem de_eq (d : Dec β) : Message.de d = (do
    let id ← Dec.u32
    let v ← Dec.len (tailDe d) .u32
    pure ((((((((Message.new v.2.2.2.2.2.1).withId id).withRequest v.1).withProtocol
      v.2.1).withInterface v.2.2.1).withType v.2.2.2.1).withCode v.2.2.2.2.1))) := rfl

theorem tailDe_apply (d : Dec β) (c s : UInt16) (p i t r : UInt8) (bs : Bytes) :
    tailDe d (headBytes c s p i t r ++ bs) =
      match d bs with
      | (.ok v, rest) => (.ok ((c.toUInt32 <<< 16) ||| s.toUInt32, p, i, MessageType.fromU8 t,
          ReturnCode.fromU8 r, v, ()), rest)
      | (.err e, rest) => (.err e, rest)
      | (.panic, rest) => (.panic, rest)
      | (.diverge, rest) => (.diverge, rest) := by
  have h1 := Dec.reads_u32 ((c.toUInt32 <<< 16) ||| s.toUInt32)
  rw [joinHalves_toNat, be4_join] at h1
  have h2 : MessageType.de.Reads [t] (MessageType.fromU8 t) := (Dec.reads_u8 t).map _
  have h3 : ReturnCode.de.Reads [r] (ReturnCode.fromU8 r) := (Dec.reads_u8 r).map _
  simp only [tailDe, headBytes, Dec.tcons]
  rw [show be 2 c.toNat ++ be 2 s.toNat ++ [p, i, t, r] ++ bs =
    (be 2 c.toNat ++ be 2 s.toNat) ++ ([p] ++ ([i] ++ ([t] ++ ([r] ++ bs)))) by simp]
  rw [Dec.bind_ok (h1 _), Dec.bind_apply, Dec.bind_ok (Dec.reads_u8 p _), Dec.bind_apply,
    Dec.bind_ok (Dec.reads_u8 i _), Dec.bind_apply, Dec.bind_ok (h2 _), Dec.bind_apply,
    Dec.bind_ok (h3 _), Dec.bind_apply]
  simp only [Dec.bind_apply, Dec.tnil, Dec.pure_apply]
  cases d bs with
  | mk o r => cases o <;> rfl

/-- Decoding anything laid out as a message, with an arbitrary length field `L ≥ 8`. -/
theorem de_layout (d : Dec β) (se me c s : UInt16) (p i t r : UInt8) (L : Nat) (rest : Bytes)
    (h8 : 8 ≤ L) (hL : L < 2 ^ 32) :
    Message.de d (be 2 se.toNat ++ be 2 me.toNat ++ be 4 L ++ headBytes c s p i t r ++ rest) =
      match d (rest.take (L - 8)) with
      | (.ok v, r') => (.ok ⟨se, me, c, s, p, i, MessageType.fromU8 t, ReturnCode.fromU8 r, v⟩,
          r' ++ rest.drop (L - 8))
      | (.err e, r') => (.err e, r' ++ rest.drop (L - 8))
      | (.panic, r') => (.panic, r' ++ rest.drop (L - 8))
      | (.diverge, r') => (.diverge, r' ++ rest.drop (L - 8)) := by
  have hin := tailDe_apply d c s p i t r (rest.take (L - 8))
  have hh := headBytes_length c s p i t r
  have htake : (headBytes c s p i t r ++ rest).take L =
      headBytes c s p i t r ++ rest.take (L - 8) := by
    rw [List.take_append, hh, List.take_of_length_le (by rw [hh]; omega)]
  have hdrop : (headBytes c s p i t r ++ rest).drop L = rest.drop (L - 8) := by
    rw [List.drop_append, hh, List.drop_of_length_le (by rw [hh]; omega), List.nil_append]
  have h1 := Dec.reads_u32 ((se.toUInt32 <<< 16) ||| me.toUInt32)
  rw [joinHalves_toNat, be4_join] at h1
  rw [show be 2 se.toNat ++ be 2 me.toNat ++ be 4 L ++ headBytes c s p i t r ++ rest =
    (be 2 se.toNat ++ be 2 me.toNat) ++ (be 4 L ++ (headBytes c s p i t r ++ rest)) by simp]
  rw [de_eq, Dec.bind_ok (h1 _), Dec.bind_apply, Dec.len_apply,
    if_neg (by simp [LengthField.width])]
  simp only [LengthField.width]
  rw [List.take_left' (be_length 4 L), List.drop_left' (be_length 4 L), be_eq_natToBE 4,
    beToNat_natToBE, Nat.mod_eq_of_lt (by simpa using hL), Dec.take_apply, htake, hdrop, hin]
  cases hd : d (rest.take (L - 8)) with
  | mk o r' =>
    cases o with
    | ok v =>
      simp only [Dec.pure_apply, Message.new, Message.withId, Message.withRequest,
        Message.withProtocol, Message.withInterface, Message.withType, Message.withCode,
        upperHalf_join, lowerHalf_join]
    | err e => rfl
    | panic => rfl
    | diverge => rfl

/-- The reader fails for lack of data on fewer than `k` bytes. -/
def Short {α : Type} (d : Dec α) (k : Nat) : Prop :=
  ∀ b, b.length < k → ∃ e a r, d b = (.err (.insufficientData e a), r)

theorem short_bind {α γ : Type} {d : Dec α} {k : Nat} (f : α → Dec γ) (h : Short d k) :
    Short (d >>= f) k := fun b hb =>
  have ⟨e, a, r, he⟩ := h b hb
  ⟨e, a, r, Dec.bind_err he⟩

theorem short_exact {α γ : Type} {d : Dec α} {k l : Nat} {f : α → Dec γ} (hd : d.Exact k)
    (hf : ∀ a, Short (f a) l) : Short (d >>= f) (k + l) := by
  intro b hb
  by_cases hk : b.length < k
  · obtain ⟨e, a, r, he⟩ := hd.short b hk
    exact ⟨e, a, r, Dec.bind_err he⟩
  · obtain ⟨v, hv⟩ := hd.ok b (by omega)
    obtain ⟨e, a, r, he⟩ := hf v (b.drop k) (by simp; omega)
    exact ⟨e, a, r, by rw [Dec.bind_ok hv, he]⟩

theorem short_zero {α : Type} (d : Dec α) : Short d 0 := fun b hb => by omega

theorem tailDe_short (d : Dec β) : Short (tailDe d) 8 :=
  short_exact (k := 4) (l := 4) (Dec.exact_prim 4 _) fun _ => short_bind _ <|
    short_exact (k := 1) (l := 3) (Dec.exact_prim 1 _) fun _ => short_bind _ <|
    short_exact (k := 1) (l := 2) (Dec.exact_prim 1 _) fun _ => short_bind _ <|
    short_exact (k := 1) (l := 1) ((Dec.exact_prim 1 _).map _) fun _ => short_bind _ <|
    short_exact (k := 1) (l := 0) ((Dec.exact_prim 1 _).map _) fun _ => short_zero _

/-- Undersized input is refused. -/
theorem de_refused (d : Dec β) (b : Bytes)
    (h : b.length < 16 ∨ beToNat ((b.drop 4).take 4) < 8) :
    ∃ e a r, Message.de d b = (.err (.insufficientData e a), r) := by
  rw [de_eq]
  by_cases h4 : b.length < 4
  · exact short_bind _ (Dec.exact_prim 4 _).short b h4
  · obtain ⟨v, hv⟩ := (Dec.exact_prim 4 UInt32.ofNat).ok b (by omega)
    rw [show Dec.u32 = Dec.prim 4 UInt32.ofNat from rfl, Dec.bind_ok hv]
    by_cases h8 : b.length < 8
    · refine ⟨4, (b.drop 4).length, b.drop 4, Dec.bind_err ?_⟩
      rw [Dec.len_apply, if_pos (by simp [LengthField.width]; omega)]
      rfl
    · obtain ⟨e, a, r, he⟩ := tailDe_short d
        (((b.drop 4).drop 4).take (beToNat ((b.drop 4).take 4))) (by simp; omega)
      refine ⟨e, a, r ++ ((b.drop 4).drop 4).drop (beToNat ((b.drop 4).take 4)), Dec.bind_err ?_⟩
      rw [Dec.len_apply, if_neg (by simp [LengthField.width]; omega)]
      simp only [LengthField.width, Dec.take_apply, he]

end Rsomeip.Someip
