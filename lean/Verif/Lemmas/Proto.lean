import Verif.Spec.Message
import Verif.Lemmas.RoundTrip

/-! Lemmas about the primitives and messages of `rsomeip-proto`. -/

namespace Rsomeip

theorem joinHalves_toNat (a b : UInt16) :
    ((a.toUInt32 <<< 16) ||| b.toUInt32).toNat = a.toNat * 65536 + b.toNat := by
  have ha := a.toNat_lt
  have hb := b.toNat_lt
  simp only [UInt32.toNat_or, UInt32.toNat_shiftLeft, UInt16.toNat_toUInt32]
  simp
  rw [Nat.shiftLeft_eq, Nat.mod_eq_of_lt (by omega)]
  have := Nat.two_pow_add_eq_or_of_lt (i := 16) hb a.toNat
  simp at this
  rw [Nat.mul_comm] at this
  simp [← this]

theorem upperHalf_toNat (n : UInt32) : ((n >>> 16).toUInt16).toNat = n.toNat / 65536 := by
  have := n.toNat_lt
  simp [UInt32.toNat_shiftRight, Nat.shiftRight_eq_div_pow]
  omega

theorem lowerHalf_toNat (n : UInt32) : ((n &&& 0xffff).toUInt16).toNat = n.toNat % 65536 := by
  have h : (0xffff : Nat) = 2 ^ 16 - 1 := rfl
  simp
  rw [h, Nat.and_two_pow_sub_one_eq_mod]
  omega

theorem joinHalves_split (n : UInt32) :
    ((n >>> 16).toUInt16.toUInt32 <<< 16) ||| (n &&& 0xffff).toUInt16.toUInt32 = n := by
  apply UInt32.toNat_inj.mp
  rw [joinHalves_toNat, upperHalf_toNat, lowerHalf_toNat]
  omega

theorem upperHalf_join (a b : UInt16) :
    (((a.toUInt32 <<< 16) ||| b.toUInt32) >>> 16).toUInt16 = a := by
  apply UInt16.toNat_inj.mp
  have hb := b.toNat_lt
  rw [upperHalf_toNat, joinHalves_toNat]
  omega

theorem lowerHalf_join (a b : UInt16) :
    (((a.toUInt32 <<< 16) ||| b.toUInt32) &&& 0xffff).toUInt16 = b := by
  apply UInt16.toNat_inj.mp
  have hb := b.toNat_lt
  rw [lowerHalf_toNat, joinHalves_toNat]
  omega

theorem be4_join (a b : UInt16) :
    Spec.be 4 (a.toNat * 65536 + b.toNat) = Spec.be 2 a.toNat ++ Spec.be 2 b.toNat := by
  have hb := b.toNat_lt
  have ha := a.toNat_lt
  simp only [be_eq_natToBE, natToBE, List.cons_append, List.nil_append, List.cons.injEq, and_true]
  refine ⟨?_, ?_, ?_, ?_⟩ <;> apply UInt8.toNat_inj.mp <;> simp <;> omega

namespace Ser

theorem good_via {α β : Type} {s : Ser β} {f : α → β} {v : α} {bs : Bytes}
    (h : s.Good (f v) bs) : (s.via f).Good v bs := h

theorem good_u8 (v : UInt8) : u8.Good v [v] := by
  have := good_prim 1 UInt8.toNat v
  rwa [natToBE_one_toNat] at this

theorem good_u16 (v : UInt16) : u16.Good v (Spec.be 2 v.toNat) := by
  have := good_prim 2 UInt16.toNat v
  rwa [← be_eq_natToBE] at this

theorem good_u32 (v : UInt32) : u32.Good v (Spec.be 4 v.toNat) := by
  have := good_prim 4 UInt32.toNat v
  rwa [← be_eq_natToBE] at this

end Ser

namespace Dec

theorem map_apply {α β : Type} (d : Dec α) (f : α → β) (b : Bytes) :
    (d.map f) b =
      match d b with
      | (.ok a, r) => (.ok (f a), r)
      | (.err e, r) => (.err e, r)
      | (.panic, r) => (.panic, r)
      | (.diverge, r) => (.diverge, r) := rfl

theorem Reads.map {α β : Type} {d : Dec α} {bs : Bytes} {v : α} (f : α → β) (h : d.Reads bs v) :
    (Dec.map d f).Reads bs (f v) := by
  intro rest
  rw [map_apply, h rest]

theorem Safe.map {α β : Type} {d : Dec α} (h : d.Safe) (f : α → β) : (Dec.map d f).Safe :=
  h.bind fun _ => safe_pure _

theorem reads_u32 (v : UInt32) : u32.Reads (Spec.be 4 v.toNat) v :=
  reads_prim (by simpa using v.toNat_lt) (by simp)

end Dec

namespace Dec

/-- The reader takes exactly `k` bytes, or fails for lack of data. -/
structure Exact {α : Type} (d : Dec α) (k : Nat) : Prop where
  ok : ∀ b, k ≤ b.length → ∃ v, d b = (.ok v, b.drop k)
  short : ∀ b, b.length < k → ∃ e a r, d b = (.err (.insufficientData e a), r)

theorem exact_prim {α : Type} (k : Nat) (f : Nat → α) : (prim k f).Exact k where
  ok b h := ⟨_, by rw [prim_apply, if_neg (by omega)]⟩
  short b h := ⟨_, _, _, prim_short f h⟩

theorem exact_pure {α : Type} (a : α) : (Pure.pure a : Dec α).Exact 0 where
  ok b _ := ⟨a, by simp⟩
  short b h := by simp at h

theorem Exact.bind {α β : Type} {d : Dec α} {f : α → Dec β} {k l : Nat} (hd : d.Exact k)
    (hf : ∀ a, (f a).Exact l) : (d >>= f).Exact (k + l) where
  ok b h := by
    obtain ⟨v, hv⟩ := hd.ok b (by omega)
    obtain ⟨w, hw⟩ := (hf v).ok (b.drop k) (by simp; omega)
    exact ⟨w, by rw [bind_ok hv, hw, List.drop_drop]⟩
  short b h := by
    by_cases hk : b.length < k
    · obtain ⟨e, a, r, he⟩ := hd.short b hk
      exact ⟨e, a, r, bind_err he⟩
    · obtain ⟨v, hv⟩ := hd.ok b (by omega)
      obtain ⟨e, a, r, he⟩ := (hf v).short (b.drop k) (by simp; omega)
      exact ⟨e, a, r, by rw [bind_ok hv, he]⟩

theorem Exact.map {α β : Type} {d : Dec α} {k : Nat} (h : d.Exact k) (f : α → β) :
    (Dec.map d f).Exact k := h.bind fun _ => exact_pure _

end Dec

namespace Proto

open Spec

theorem codeNumber_eq (c : ReturnCode) : codeNumber c = c.asU8 := by cases c <;> rfl

theorem forall_u8 {p : UInt8 → Prop} (h : ∀ n : Fin 256, p (UInt8.ofNat n.1)) (x : UInt8) : p x := by
  have := h ⟨x.toNat, x.toNat_lt⟩
  simpa using this

theorem codeOf_eq (x : UInt8) : codeOf x = ReturnCode.fromU8 x :=
  forall_u8 (p := fun x => codeOf x = ReturnCode.fromU8 x) (by decide +kernel) x

theorem codeNumber_codeOf (x : UInt8) : codeNumber (codeOf x) = x :=
  forall_u8 (p := fun x => codeNumber (codeOf x) = x) (by decide +kernel) x

theorem codeOk_codeOf (x : UInt8) : CodeOk (codeOf x) := by
  rw [CodeOk, codeNumber_codeOf]

theorem headerBytes_length (h : Header) : (headerBytes h).length = 8 := by simp [headerBytes]

theorem good_header (h : Header) : Header.ser.Good h (headerBytes h) := by
  have := Ser.good_via (f := Header.tuple) (v := h)
    (Ser.good_tcons (Ser.good_via (s := Ser.u16) (f := ClientId.val) (Ser.good_u16 h.client.val))
    (Ser.good_tcons (Ser.good_via (s := Ser.u16) (f := SessionId.val) (Ser.good_u16 h.session.val))
    (Ser.good_tcons (Ser.good_via (s := Ser.u8) (f := ProtocolVersion.val) (Ser.good_u8 h.protocol.val))
    (Ser.good_tcons (Ser.good_via (s := Ser.u8) (f := InterfaceVersion.val) (Ser.good_u8 h.interface.val))
    (Ser.good_tcons (Ser.good_via (s := Ser.u8) (f := MessageTypeField.val) (Ser.good_u8 h.messageType.val))
    (Ser.good_tcons (show ReturnCode.ser.Good h.returnCode [codeNumber h.returnCode] from by
      rw [codeNumber_eq]; exact Ser.good_u8 h.returnCode.asU8) (Ser.good_tnil ())))))))
  simpa [headerBytes, Header.ser, ClientId.ser, SessionId.ser, ProtocolVersion.ser,
    InterfaceVersion.ser, MessageTypeField.ser] using this

theorem hint_header (h : Header) : Header.ser.sizeHint h = 8 := rfl

theorem reads_header (h : Header) :
    Header.de.Reads (headerBytes h) { h with returnCode := codeOf (codeNumber h.returnCode) } := by
  have hc : ReturnCode.de.Reads [codeNumber h.returnCode] (codeOf (codeNumber h.returnCode)) := by
    rw [codeOf_eq]
    exact (Dec.reads_u8 _).map _
  intro rest
  have h1 : ClientId.de.Reads _ _ := (Dec.reads_u16 h.client.val).map ClientId.mk
  have h2 : SessionId.de.Reads _ _ := (Dec.reads_u16 h.session.val).map SessionId.mk
  have h3 : ProtocolVersion.de.Reads _ _ := (Dec.reads_u8 h.protocol.val).map ProtocolVersion.mk
  have h4 : InterfaceVersion.de.Reads _ _ := (Dec.reads_u8 h.interface.val).map InterfaceVersion.mk
  have h5 : MessageTypeField.de.Reads _ _ := (Dec.reads_u8 h.messageType.val).map MessageTypeField.mk
  have := Dec.Reads.bind (f := fun client => do
      let session ← SessionId.de
      let protocol ← ProtocolVersion.de
      let interface ← InterfaceVersion.de
      let messageType ← MessageTypeField.de
      let returnCode ← ReturnCode.de
      pure ({ client, session, protocol, interface, messageType, returnCode } : Header)) h1
    (Dec.Reads.bind h2 (Dec.Reads.bind h3 (Dec.Reads.bind h4 (Dec.Reads.bind h5
      (Dec.Reads.bind hc (Dec.reads_pure _))))))
  have := this rest
  simpa [headerBytes, Header.de] using this

theorem exact_header : Header.de.Exact 8 :=
  ((Dec.exact_prim 2 _).map _).bind fun _ => ((Dec.exact_prim 2 _).map _).bind fun _ =>
    ((Dec.exact_prim 1 _).map _).bind fun _ => ((Dec.exact_prim 1 _).map _).bind fun _ =>
      ((Dec.exact_prim 1 _).map _).bind fun _ => ((Dec.exact_prim 1 _).map _).bind fun _ =>
        Dec.exact_pure _

/-- Any eight bytes are the bytes of some header. -/
theorem header_of_bytes (l : Bytes) (hl : l.length = 8) :
    ∃ h : Header, headerBytes h = l ∧ CodeOk h.returnCode := by
  match l, hl with
  | [a, b, c, d, e, f, g, i], _ =>
    refine ⟨⟨⟨UInt16.ofNat (beToNat [a, b])⟩, ⟨UInt16.ofNat (beToNat [c, d])⟩, ⟨e⟩, ⟨f⟩, ⟨g⟩,
      codeOf i⟩, ?_, codeOk_codeOf i⟩
    have hx : ∀ x y : UInt8, be 2 (UInt16.ofNat (beToNat [x, y])).toNat = [x, y] := by
      intro x y
      have hlt := beToNat_lt [x, y]
      rw [UInt16.toNat_ofNat', Nat.mod_eq_of_lt (by simpa using hlt), be_eq_natToBE]
      exact natToBE_beToNat [x, y]
    simp only [headerBytes, hx, codeNumber_codeOf]
    rfl

theorem u16_of_bytes (l : Bytes) (hl : l.length = 2) : ∃ v : UInt16, be 2 v.toNat = l := by
  have hlt := beToNat_lt l
  rw [hl] at hlt
  refine ⟨UInt16.ofNat (beToNat l), ?_⟩
  rw [UInt16.toNat_ofNat', Nat.mod_eq_of_lt (by simpa using hlt), be_eq_natToBE, ← hl]
  exact natToBE_beToNat l

theorem be4_of_bytes (l : Bytes) (hl : l.length = 4) : ∃ n < 2 ^ 32, be 4 n = l := by
  have hlt := beToNat_lt l
  rw [hl] at hlt
  refine ⟨beToNat l, by simpa using hlt, ?_⟩
  rw [be_eq_natToBE, ← hl]
  exact natToBE_beToNat l

section

variable {β : Type}

theorem good_ids (s : ServiceId) (m : MethodId) :
    (Ser.tcons ServiceId.ser (Ser.tcons MethodId.ser Ser.tnil)).Good (s, m, ())
      (be 2 s.val.toNat ++ be 2 m.val.toNat) := by
  have := Ser.good_tcons (v := (s, m, ())) (Ser.good_via (s := Ser.u16) (f := ServiceId.val) (Ser.good_u16 s.val))
    (Ser.good_tcons (v := (m, ())) (Ser.good_via (s := Ser.u16) (f := MethodId.val) (Ser.good_u16 m.val))
      (Ser.good_tnil ()))
  simpa [ServiceId.ser, MethodId.ser] using this

theorem payload_hint {b : Ser β} {m : Message β} {bs : Bytes} (h : Payload b m.body bs) :
    (Ser.tcons Header.ser (Ser.tcons b Ser.tnil)).sizeHint (m.header, m.body, ()) =
      8 + bs.length := by
  show Header.ser.sizeHint m.header + (b.sizeHint m.body + 0) = _
  rw [h.2, hint_header, Nat.add_zero]

theorem good_message {b : Ser β} {m : Message β} {bs : Bytes} (h : Payload b m.body bs)
    (hl : 8 + bs.length < 2 ^ 32) : (Message.ser b).Good m (messageBytes m bs) := by
  have hin : (Ser.tcons Header.ser (Ser.tcons b Ser.tnil)).Good (m.header, m.body, ())
      (headerBytes m.header ++ bs) := by
    have := Ser.good_tcons (v := (m.header, m.body, ())) (good_header m.header)
      (Ser.good_tcons (v := (m.body, ())) h.1 (Ser.good_tnil ()))
    simpa using this
  have hlen := Ser.serializeLen_ok .u32 (by rw [payload_hint h]; simp [maxLen]; omega) hin
  rw [payload_hint h] at hlen
  have := (good_ids m.service m.method).bind (f := fun s1 => do
    let s2 ← (Ser.tcons Header.ser (Ser.tcons b Ser.tnil)).serializeLen .u32 (m.header, m.body, ())
    (pure (s1 + s2) : W Nat)) (hlen.bind (W.writes_pure _))
  simp only [List.append_nil, lenWidth] at this
  simp only [Ser.Good, messageBytes]
  have e1 : be 2 m.service.val.toNat ++ be 2 m.method.val.toNat ++
      (be 4 (8 + bs.length) ++ (headerBytes m.header ++ bs)) = messageBytes m bs := by
    simp [messageBytes]
  have e2 : (be 2 m.service.val.toNat ++ be 2 m.method.val.toNat).length +
      (4 + (headerBytes m.header ++ bs).length) = (messageBytes m bs).length := by
    rw [← e1]
    simp only [List.length_append, be_length]
  rw [e1, e2] at this
  exact this

theorem message_tooLong {b : Ser β} {m : Message β} {bs : Bytes} (h : Payload b m.body bs)
    (hl : 2 ^ 32 ≤ 8 + bs.length) :
    ((Message.ser b).serialize m).Writes (be 2 m.service.val.toNat ++ be 2 m.method.val.toNat)
      (.err (.invalidLength (8 + bs.length) (2 ^ 32 - 1))) := by
  have hlen := Ser.serializeLen_err (s := Ser.tcons Header.ser (Ser.tcons b Ser.tnil))
    (v := (m.header, m.body, ())) .u32 (by rw [payload_hint h]; simp [maxLen]; omega)
  rw [payload_hint h] at hlen
  have := (good_ids m.service m.method).bind (f := fun s1 => do
    let s2 ← (Ser.tcons Header.ser (Ser.tcons b Ser.tnil)).serializeLen .u32 (m.header, m.body, ())
    (pure (s1 + s2) : W Nat)) hlen.bind_err
  rw [List.append_nil] at this
  exact this

theorem hint_message {b : Ser β} {m : Message β} {bs : Bytes} (h : Payload b m.body bs) :
    (Message.ser b).sizeHint m = 16 + bs.length := by
  show (2 + 2) + (4 + Header.ser.sizeHint m.header + b.sizeHint m.body) = _
  rw [h.2, hint_header]
  omega

theorem messageBytes_length (m : Message β) (bs : Bytes) :
    (messageBytes m bs).length = 16 + bs.length := by
  simp [messageBytes, headerBytes_length]; omega

theorem reads_ids (s : ServiceId) (m : MethodId) :
    (Dec.tcons ServiceId.de (Dec.tcons MethodId.de Dec.tnil)).Reads
      (be 2 s.val.toNat ++ be 2 m.val.toNat) (s, m, ()) := by
  have := Dec.Reads.tcons (v := (s, m, ())) ((Dec.reads_u16 s.val).map ServiceId.mk)
    (Dec.Reads.tcons (v := (m, ())) ((Dec.reads_u16 m.val).map MethodId.mk)
      (Dec.reads_pure ()))
  simpa [ServiceId.de, MethodId.de, Dec.tnil] using this

/-- Decoding anything laid out as a message, with an arbitrary length field `L ≥ 8`. -/
theorem de_layout (d : Dec β) (s : ServiceId) (m : MethodId) (L : Nat) (h : Header) (rest : Bytes)
    (h8 : 8 ≤ L) (hL : L < 2 ^ 32) :
    Message.de d (be 2 s.val.toNat ++ be 2 m.val.toNat ++ be 4 L ++ headerBytes h ++ rest) =
      match d (rest.take (L - 8)) with
      | (.ok v, r) => (.ok ⟨s, m, { h with returnCode := codeOf (codeNumber h.returnCode) }, v⟩,
          r ++ rest.drop (L - 8))
      | (.err e, r) => (.err e, r ++ rest.drop (L - 8))
      | (.panic, r) => (.panic, r ++ rest.drop (L - 8))
      | (.diverge, r) => (.diverge, r ++ rest.drop (L - 8)) := by
  have hin : (Dec.tcons Header.de (Dec.tcons d Dec.tnil)) (headerBytes h ++ rest.take (L - 8)) =
      match d (rest.take (L - 8)) with
      | (.ok v, r) => (.ok ({ h with returnCode := codeOf (codeNumber h.returnCode) }, v, ()), r)
      | (.err e, r) => (.err e, r)
      | (.panic, r) => (.panic, r)
      | (.diverge, r) => (.diverge, r) := by
    simp only [Dec.tcons]
    rw [Dec.bind_ok (reads_header h _)]
    simp only [Dec.bind_apply, Dec.tnil, Dec.pure_apply]
    cases hd : d (rest.take (L - 8)) with
    | mk o r => cases o <;> rfl
  have htake : (headerBytes h ++ rest).take L = headerBytes h ++ rest.take (L - 8) := by
    rw [List.take_append, headerBytes_length, List.take_of_length_le (by rw [headerBytes_length]; omega)]
  have hdrop : (headerBytes h ++ rest).drop L = rest.drop (L - 8) := by
    rw [List.drop_append, headerBytes_length, List.drop_of_length_le (by rw [headerBytes_length]; omega),
      List.nil_append]
  have hlen : Dec.len (Dec.tcons Header.de (Dec.tcons d Dec.tnil)) .u32
      (be 4 L ++ (headerBytes h ++ rest)) =
      match d (rest.take (L - 8)) with
      | (.ok v, r) => (.ok ({ h with returnCode := codeOf (codeNumber h.returnCode) }, v, ()),
          r ++ rest.drop (L - 8))
      | (.err e, r) => (.err e, r ++ rest.drop (L - 8))
      | (.panic, r) => (.panic, r ++ rest.drop (L - 8))
      | (.diverge, r) => (.diverge, r ++ rest.drop (L - 8)) := by
    rw [Dec.len_apply, if_neg (by simp [LengthField.width])]
    simp only [LengthField.width]
    rw [List.take_left' (be_length 4 L), List.drop_left' (be_length 4 L), be_eq_natToBE,
      beToNat_natToBE, Nat.mod_eq_of_lt (by simpa using hL), Dec.take_apply, htake, hdrop, hin]
    cases hd : d (rest.take (L - 8)) with
    | mk o r => cases o <;> rfl
  simp only [Message.de, GenericMessage.de]
  rw [show be 2 s.val.toNat ++ be 2 m.val.toNat ++ be 4 L ++ headerBytes h ++ rest =
    (be 2 s.val.toNat ++ be 2 m.val.toNat) ++ (be 4 L ++ (headerBytes h ++ rest)) by simp]
  rw [Dec.bind_ok (reads_ids s m _)]
  simp only [Dec.bind_apply, hlen]
  cases hd : d (rest.take (L - 8)) with
  | mk o r => cases o <;> rfl

/-- Any sixteen bytes or more are laid out as a message, with some length field. -/
theorem layout_of_bytes (b : Bytes) (hb : 16 ≤ b.length) :
    ∃ s m L h rest, b = be 2 (ServiceId.val s).toNat ++ be 2 (MethodId.val m).toNat ++ be 4 L ++
      headerBytes h ++ rest ∧ L < 2 ^ 32 ∧ CodeOk h.returnCode := by
  obtain ⟨s, hs⟩ := u16_of_bytes (b.take 2) (by simp; omega)
  obtain ⟨m, hm⟩ := u16_of_bytes ((b.drop 2).take 2) (by simp; omega)
  obtain ⟨L, hL, hl⟩ := be4_of_bytes ((b.drop 4).take 4) (by simp; omega)
  obtain ⟨h, hh, hc⟩ := header_of_bytes ((b.drop 8).take 8) (by simp; omega)
  refine ⟨⟨s⟩, ⟨m⟩, L, h, b.drop 16, ?_, hL, hc⟩
  simp only [hs, hm, hl, hh]
  have e1 : b = b.take 2 ++ b.drop 2 := (List.take_append_drop _ _).symm
  have e2 : b.drop 2 = (b.drop 2).take 2 ++ b.drop 4 := by
    conv_lhs => rw [← List.take_append_drop 2 (b.drop 2)]
    rw [List.drop_drop]
  have e3 : b.drop 4 = (b.drop 4).take 4 ++ b.drop 8 := by
    conv_lhs => rw [← List.take_append_drop 4 (b.drop 4)]
    rw [List.drop_drop]
  have e4 : b.drop 8 = (b.drop 8).take 8 ++ b.drop 16 := by
    conv_lhs => rw [← List.take_append_drop 8 (b.drop 8)]
    rw [List.drop_drop]
  conv_lhs => rw [e1, e2, e3, e4]
  simp

end

end Proto

end Rsomeip
