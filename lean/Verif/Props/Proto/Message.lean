import Verif.Lemmas.Proto

/-! # C29–C34: messages -/

namespace Rsomeip

open Spec Proto

variable {β : Type}

/-- Every serializable value of every type of `rsomeip-bytes` is a payload in the sense of the
theorems below. -/
theorem payload_universe (t : Ty) (v : t.Val) (h : Fits t v) : Payload t.ser v (wire t v) :=
  ⟨good_fits t v h, hint_eq t v⟩

theorem payload_bytes (bs : Bytes) : Payload Ser.bytes bs bs := ⟨Ser.good_bytes bs, rfl⟩

/-- **C29.** A message is written as service, method, length, header and payload, into growable
buffers and into buffers with enough room; the number of bytes is reported by `serialize` and by
`size_hint`. -/
theorem C29_wire_layout (b : Ser β) (m : Message β) (bs : Bytes) (h : Payload b m.body bs)
    (hl : 8 + bs.length < 2 ^ 32) :
    (∀ d, (Message.ser b).serialize m ⟨d, none⟩ =
      (.ok (16 + bs.length), ⟨d ++ messageBytes m bs, none⟩)) ∧
    (∀ d n, (Message.ser b).serialize m ⟨d, some (16 + bs.length + n)⟩ =
      (.ok (16 + bs.length), ⟨d ++ messageBytes m bs, some n⟩)) ∧
    (Message.ser b).sizeHint m = 16 + bs.length ∧
    GenericMessage.toBytes Header.ser b m = .ok (messageBytes m bs) := by
  have hg := good_message h hl
  have hlen := messageBytes_length m bs
  refine ⟨fun d => by rw [hg.grow d, hlen], fun d n => ?_, hint_message h, ?_⟩
  · rw [hg.room d _ (by rw [hlen]; omega), hlen, Nat.add_sub_cancel_left]
  · have := hg.grow []
    simp only [Message.ser] at this
    simp only [GenericMessage.toBytes, this, List.nil_append]

/-- **C29.** `to_bytes` succeeds exactly if the length field can hold eight plus the payload size;
otherwise the error reports the size needed and the limit. -/
theorem C29_to_bytes_iff (b : Ser β) (m : Message β) (bs : Bytes) (h : Payload b m.body bs) :
    ((∃ out, GenericMessage.toBytes Header.ser b m = .ok out) ↔ 8 + bs.length < 2 ^ 32) ∧
    (2 ^ 32 ≤ 8 + bs.length → GenericMessage.toBytes Header.ser b m =
      .err (.invalidLength (8 + bs.length) (2 ^ 32 - 1))) := by
  have herr : 2 ^ 32 ≤ 8 + bs.length → GenericMessage.toBytes Header.ser b m =
      .err (.invalidLength (8 + bs.length) (2 ^ 32 - 1)) := by
    intro hl
    have := (message_tooLong h hl).grow []
    simp only [Message.ser] at this
    simp only [GenericMessage.toBytes, this]
  refine ⟨⟨fun ⟨out, ho⟩ => ?_, fun hl => ⟨_, (C29_wire_layout b m bs h hl).2.2.2⟩⟩, herr⟩
  by_cases hl : 8 + bs.length < 2 ^ 32
  · exact hl
  · rw [herr (by omega)] at ho
    cases ho

/-- A message used in the examples. -/
def Spec.sample : Message Bytes :=
  ⟨⟨0x1234⟩, ⟨0x5678⟩, ⟨⟨0x9abc⟩, ⟨0xdef0⟩, ⟨1⟩, ⟨2⟩, ⟨0x80⟩, .notOk⟩, [0xaa, 0xbb]⟩

example : Payload Ser.bytes sample.body [0xaa, 0xbb] ∧ 8 + [0xaa, 0xbb].length < 2 ^ 32 :=
  ⟨payload_bytes _, by decide⟩
example : messageBytes sample [0xaa, 0xbb] =
    [0x12, 0x34, 0x56, 0x78, 0, 0, 0, 10, 0x9a, 0xbc, 0xde, 0xf0, 1, 2, 0x80, 1, 0xaa, 0xbb] := by
  decide +kernel
/-- A payload of a compound type. -/
example : let t : Ty := .pair .u8 (.len .u16 (.vec .i32))
    let v : t.Val := ((1 : UInt8), ([-1, 5] : List Int32))
    Fits t v := ⟨trivial, by decide +kernel, fun _ _ => trivial⟩

/-! ### Round trip -/

/-- **C30.** Reading a written message gives the message back and leaves what follows untouched. The
return code comes back as the code with the same number; it is the same value unless it was an
alias such as `Reserved(0)`. -/
theorem C30_round_trip (b : Ser β) (d : Dec β) (m : Message β) (bs : Bytes)
    (h : Payload b m.body bs) (hd : d bs = (.ok m.body, [])) (hl : 8 + bs.length < 2 ^ 32)
    (buf : BufMut) (n : Nat) (hs : (Message.ser b).serialize m ⟨[], none⟩ = (.ok n, buf))
    (rest : Bytes) :
    Message.de d (buf.data ++ rest) =
      (.ok (m.withReturnCode (codeOf (codeNumber m.returnCode))), rest) ∧
    (CodeOk m.returnCode → Message.de d (buf.data ++ rest) = (.ok m, rest)) := by
  rw [(good_message h hl).grow []] at hs
  cases hs
  have key : Message.de d (messageBytes m bs ++ rest) =
      (.ok (m.withReturnCode (codeOf (codeNumber m.returnCode))), rest) := by
    have := de_layout d m.service m.method (8 + bs.length) m.header (bs ++ rest) (by omega) hl
    rw [Nat.add_sub_cancel_left, List.take_left, List.drop_left, hd] at this
    simp only [messageBytes, List.append_assoc] at this ⊢
    exact this
  refine ⟨by simpa using key, fun hc => ?_⟩
  rw [CodeOk] at hc
  rw [hc] at key
  have : m.withReturnCode m.returnCode = m := rfl
  rw [this] at key
  simpa using key

/-- **C30.** The same for every type of `rsomeip-bytes` as payload. -/
theorem C30_round_trip_universe (host : Endian) (t : Ty) (m : Message t.Val) (buf : BufMut) (n : Nat)
    (ht : WellFormed t = true) (hh : HostOk host t = true) (hn : NoNul t m.body)
    (hf : Fits t m.body) (hc : CodeOk m.returnCode) (hl : 8 + (wire t m.body).length < 2 ^ 32)
    (hs : (Message.ser t.ser).serialize m ⟨[], none⟩ = (.ok n, buf)) (rest : Bytes) :
    Message.de (t.de host) (buf.data ++ rest) = (.ok m, rest) :=
  (C30_round_trip t.ser (t.de host) m (wire t m.body) (payload_universe t _ hf)
    (reads_wellFormed host t m.body ht hh hn hf) hl buf n hs rest).2 hc

/-- **C30.** A buffer of concatenated messages is read as exactly these messages, in order. -/
theorem C30_stream (ms : List (Message Bytes))
    (h : ∀ m ∈ ms, CodeOk m.returnCode ∧ 8 + m.body.length < 2 ^ 32) :
    Dec.vec (Message.de Dec.bytes) (ms.flatMap fun m => messageBytes m m.body) = (.ok ms, []) := by
  apply Dec.vec_reads
  · intro m hm rest
    obtain ⟨hc, hl⟩ := h m hm
    have hg := (good_message (payload_bytes m.body) hl).grow []
    have := (C30_round_trip Ser.bytes Dec.bytes m m.body (payload_bytes _)
      (Dec.bytes_apply _) hl _ _ hg rest).2 hc
    simpa using this
  · intro m hm e
    have := messageBytes_length m m.body
    rw [e] at this
    simp at this
    omega

example : CodeOk sample.returnCode ∧ 8 + sample.body.length < 2 ^ 32 := by decide +kernel
example : CodeOk (.reserved 0x20) ∧ CodeOk (.other 0xff) ∧ ¬ CodeOk (.reserved 0) := by
  decide +kernel
example : Dec.vec (Message.de Dec.bytes)
    ([sample, sample].flatMap fun m => messageBytes m m.body) = (.ok [sample, sample], []) := by
  decide +kernel

/-- Without the restriction on the return code the message does not come back unchanged. -/
theorem C30_alias_not_preserved :
    ¬ ∀ m : Message Bytes, 8 + m.body.length < 2 ^ 32 →
      Message.de Dec.bytes (messageBytes m m.body) = (.ok m, []) := by
  intro h
  have := h (sample.withReturnCode (.reserved 0)) (by decide +kernel)
  revert this
  decide +kernel

/-- **C31.** If a message is decoded and its declared length does not exceed the buffer, then
re-encoding it gives exactly the bytes consumed. -/
theorem C31_reencode (pre : Bytes) (L : Nat) (tail : Bytes) (m : Message Bytes) (r : Bytes)
    (h4 : pre.length = 4) (hL : L < 2 ^ 32) (hlen : L ≤ tail.length)
    (h : Message.de Dec.bytes (pre ++ be 4 L ++ tail) = (.ok m, r)) :
    pre ++ be 4 L ++ tail = messageBytes m m.body ++ r ∧
    GenericMessage.toBytes Header.ser Ser.bytes m = .ok (messageBytes m m.body) ∧
    CodeOk m.returnCode := by
  by_cases h8 : 8 ≤ L
  · obtain ⟨s, me, L', hd, rest, hb, hL', hc⟩ :=
      layout_of_bytes (pre ++ be 4 L ++ tail) (by simp [h4]; omega)
    have hLL : L' = L := by
      have e1 := congrArg (fun l => (l.drop 4).take 4) hb
      simp only [List.append_assoc] at e1
      rw [List.drop_left' h4, List.take_left' (be_length 4 L), ← List.append_assoc (be 2 _),
        List.drop_left' (by simp), List.take_left' (be_length 4 L')] at e1
      rw [be_eq_natToBE, be_eq_natToBE] at e1
      exact (natToBE_injective (by simpa using hL) (by simpa using hL') e1).symm
    subst hLL
    have htail : 8 + rest.length = tail.length := by
      have := congrArg List.length hb
      simp [h4, headerBytes_length] at this
      omega
    rw [hb, de_layout _ _ _ _ _ _ h8 hL', Dec.bytes_apply] at h
    simp only [List.nil_append] at h
    cases h
    rw [CodeOk] at hc
    have hbody : (rest.take (L' - 8)).length = L' - 8 := by
      rw [List.length_take]; omega
    refine ⟨?_, ?_, ?_⟩
    · rw [hb]
      simp only [messageBytes, hbody, hc]
      rw [show 8 + (L' - 8) = L' by omega]
      simp
    · refine (C29_wire_layout Ser.bytes _ _ (payload_bytes _) ?_).2.2.2
      simp only [hbody]
      omega
    · show CodeOk (codeOf (codeNumber hd.returnCode))
      exact codeOk_codeOf _
  · -- a length below eight is refused, so nothing was decoded
    exfalso
    have hids : ((Dec.tcons ServiceId.de (Dec.tcons MethodId.de Dec.tnil)).Exact 4) :=
      ((Dec.exact_prim 2 _).map _).bind fun _ =>
        (((Dec.exact_prim 2 _).map _).bind fun _ => (Dec.exact_pure ()).bind fun _ =>
          Dec.exact_pure _).bind fun _ => Dec.exact_pure _
    obtain ⟨v, hv⟩ := hids.ok (pre ++ be 4 L ++ tail) (by simp [h4])
    obtain ⟨e, a, r', he⟩ := exact_header.short (tail.take L) (by simp; omega)
    have hin : ((Dec.tcons Header.de (Dec.tcons Dec.bytes Dec.tnil)).len .u32)
        (be 4 L ++ tail) = (.err (.insufficientData e a), r' ++ tail.drop L) := by
      rw [Dec.len_apply, if_neg (by simp [LengthField.width])]
      simp only [LengthField.width]
      rw [List.take_left' (be_length 4 L), List.drop_left' (be_length 4 L), be_eq_natToBE,
        beToNat_natToBE, Nat.mod_eq_of_lt (by simpa using hL), Dec.take_apply]
      rw [show (Dec.tcons Header.de (Dec.tcons Dec.bytes Dec.tnil)) (tail.take L) = _ from
        Dec.bind_err he]
    rw [List.append_assoc, List.drop_left' h4] at hv
    rw [List.append_assoc] at h
    simp only [Message.de, GenericMessage.de] at h
    rw [Dec.bind_ok hv, Dec.bind_err hin] at h
    cases h

example : Message.de Dec.bytes ([0x12, 0x34, 0x56, 0x78] ++ be 4 9 ++
    [0, 1, 0, 2, 1, 1, 0x21, 0x7f, 0xee, 0xdd]) =
    (.ok ⟨⟨0x1234⟩, ⟨0x5678⟩, ⟨⟨1⟩, ⟨2⟩, ⟨1⟩, ⟨1⟩, ⟨0x21⟩, .other 0x7f⟩, [0xee]⟩, [0xdd]) := by
  decide +kernel

/-! ### Malformed input -/

theorem exact_ids : ((Dec.tcons ServiceId.de (Dec.tcons MethodId.de Dec.tnil)).Exact 4) :=
  ((Dec.exact_prim 2 _).map _).bind fun _ =>
    (((Dec.exact_prim 2 _).map _).bind fun _ => (Dec.exact_pure ()).bind fun _ =>
      Dec.exact_pure _).bind fun _ => Dec.exact_pure _

/-- **C32.** Fewer than sixteen bytes never decode, whatever the payload type: the error is
`InsufficientData`. -/
theorem C32_short (d : Dec β) (b : Bytes) (h : b.length < 16) :
    ∃ e a r, Message.de d b = (.err (.insufficientData e a), r) := by
  simp only [Message.de, GenericMessage.de]
  by_cases h4 : b.length < 4
  · obtain ⟨e, a, r, he⟩ := exact_ids.short b h4
    exact ⟨e, a, r, Dec.bind_err he⟩
  · obtain ⟨v, hv⟩ := exact_ids.ok b (by omega)
    rw [Dec.bind_ok hv]
    by_cases h8 : b.length < 8
    · refine ⟨4, (b.drop 4).length, b.drop 4, Dec.bind_err ?_⟩
      rw [Dec.len_apply, if_pos (by simp [LengthField.width]; omega)]
      rfl
    · obtain ⟨e, a, r, he⟩ := exact_header.short
        (((b.drop 4).drop 4).take (beToNat ((b.drop 4).take 4))) (by simp; omega)
      refine ⟨e, a, r ++ ((b.drop 4).drop 4).drop (beToNat ((b.drop 4).take 4)), Dec.bind_err ?_⟩
      rw [Dec.len_apply, if_neg (by simp [LengthField.width]; omega)]
      simp only [LengthField.width, Dec.take_apply]
      rw [show (Dec.tcons Header.de (Dec.tcons d Dec.tnil)) _ = _ from Dec.bind_err he]

/-- **C32.** A declared length below eight never decodes, whatever follows. -/
theorem C32_small_length (d : Dec β) (pre : Bytes) (L : Nat) (tail : Bytes) (h4 : pre.length = 4)
    (hL : L < 8) : ∃ e a r, Message.de d (pre ++ be 4 L ++ tail) =
      (.err (.insufficientData e a), r) := by
  simp only [Message.de, GenericMessage.de]
  obtain ⟨v, hv⟩ := exact_ids.ok (pre ++ be 4 L ++ tail) (by simp [h4])
  obtain ⟨e, a, r, he⟩ := exact_header.short (tail.take L) (by simp; omega)
  refine ⟨e, a, r ++ tail.drop L, ?_⟩
  rw [Dec.bind_ok hv]
  refine Dec.bind_err ?_
  rw [List.append_assoc, List.drop_left' h4, Dec.len_apply,
    if_neg (by simp [LengthField.width])]
  simp only [LengthField.width]
  rw [List.take_left' (be_length 4 L), List.drop_left' (be_length 4 L), be_eq_natToBE,
    beToNat_natToBE, Nat.mod_eq_of_lt (by omega), Dec.take_apply]
  rw [show (Dec.tcons Header.de (Dec.tcons d Dec.tnil)) (tail.take L) = _ from Dec.bind_err he]

/-- **C32.** For raw payloads these are the only rejections: everything else decodes. -/
theorem C32_accepts_rest (pre : Bytes) (L : Nat) (tail : Bytes) (h4 : pre.length = 4)
    (hL : L < 2 ^ 32) (h8 : 8 ≤ L) (ht : 8 ≤ tail.length) :
    ∃ m, Message.de Dec.bytes (pre ++ be 4 L ++ tail) = (.ok m, tail.drop L) ∧
      m.body = (tail.drop 8).take (L - 8) := by
  obtain ⟨s, hs⟩ := u16_of_bytes (pre.take 2) (by simp; omega)
  obtain ⟨me, hm⟩ := u16_of_bytes (pre.drop 2) (by simp; omega)
  obtain ⟨h, hh, hc⟩ := header_of_bytes (tail.take 8) (by simp; omega)
  have hb : pre ++ be 4 L ++ tail =
      be 2 s.toNat ++ be 2 me.toNat ++ be 4 L ++ headerBytes h ++ tail.drop 8 := by
    rw [hs, hm, hh, List.take_append_drop, List.append_assoc _ (tail.take 8),
      List.take_append_drop]
  have := de_layout Dec.bytes ⟨s⟩ ⟨me⟩ L h (tail.drop 8) h8 hL
  rw [← hb, Dec.bytes_apply] at this
  simp only [List.nil_append, List.drop_drop] at this
  rw [show 8 + (L - 8) = L by omega] at this
  exact ⟨_, this, rfl⟩

/-- **C32** (truncation), the part that holds: if the payload decoder rejects every proper prefix
of a payload, then the message decoder rejects every proper prefix of the message. Missing: raw
payloads (and others that accept prefixes), for which the claim is false
(`C32_truncated_accepted`). -/
theorem C32_truncated_partial (b : Ser β) (d : Dec β) (m : Message β) (bs : Bytes)
    (_h : Payload b m.body bs) (hl : 8 + bs.length < 2 ^ 32)
    (hd : ∀ p, p <+: bs → p ≠ bs → ∃ e, (d p).1 = .err e)
    (p : Bytes) (hp : p <+: messageBytes m bs) (hne : p ≠ messageBytes m bs) :
    ∃ e, (Message.de d p).1 = .err e := by
  have hlen := messageBytes_length m bs
  by_cases h16 : p.length < 16
  · obtain ⟨e, a, r, he⟩ := C32_short d p h16
    exact ⟨_, by rw [he]⟩
  · obtain ⟨q, hq⟩ := hp
    -- `p` is the first sixteen bytes and a proper prefix of the payload
    have hpre : (messageBytes m bs).take 16 =
        be 2 m.service.val.toNat ++ be 2 m.method.val.toNat ++ be 4 (8 + bs.length) ++
          headerBytes m.header := by
      rw [messageBytes, List.take_left' (by simp [headerBytes_length])]
    have hp16 : p.take 16 = (messageBytes m bs).take 16 := by
      rw [← hq, List.take_append_of_le_length (by omega)]
    have hbs : (messageBytes m bs).drop 16 = bs := by
      rw [messageBytes, List.drop_left' (by simp [headerBytes_length])]
    have hpd : p.drop 16 ++ q = bs := by
      rw [← hbs, ← hq, List.drop_append_of_le_length (by omega)]
    have hpe : p = be 2 m.service.val.toNat ++ be 2 m.method.val.toNat ++
        be 4 (8 + bs.length) ++ headerBytes m.header ++ p.drop 16 := by
      rw [← hpre, ← hp16, List.take_append_drop]
    have hqne : q ≠ [] := by
      rintro rfl
      rw [List.append_nil] at hq
      exact hne hq
    obtain ⟨e, he⟩ := hd (p.drop 16) ⟨q, hpd⟩ (by
      intro hc
      rw [hc] at hpd
      have h1 := congrArg List.length hpd
      have h2 := List.length_pos_iff.mpr hqne
      rw [List.length_append] at h1
      omega)
    have := de_layout d m.service m.method (8 + bs.length) m.header (p.drop 16) (by omega) hl
    rw [← hpe, Nat.add_sub_cancel_left] at this
    rw [List.take_of_length_le (by have := congrArg List.length hpd; simp at this ⊢; omega)] at this
    refine ⟨e, ?_⟩
    rw [this]
    cases hdp : d (p.drop 16) with
    | mk o r =>
      rw [hdp] at he
      simp only at he
      subst he
      rfl

/-- A payload decoder for which the hypothesis of `C32_truncated_partial` holds. -/
example : ∀ p, p <+: be 4 0x01020304 → p ≠ be 4 0x01020304 → ∃ e, (Dec.u32 p).1 = .err e := by
  intro p hp hne
  have hl := hp.length_le
  rw [be_length] at hl
  by_cases h : p.length = 4
  · exact absurd (hp.eq_of_length (by rw [h, be_length])) hne
  · exact ⟨_, by rw [Dec.u32, Dec.prim_short _ (by omega)]⟩

/-- **C32** fails for raw payloads: a message cut short in its payload is accepted as complete. -/
theorem C32_truncated_accepted :
    ¬ ∀ (m : Message Bytes) (p : Bytes), p <+: messageBytes m m.body → p ≠ messageBytes m m.body →
      ∃ e, (Message.de Dec.bytes p).1 = .err e := by
  intro h
  obtain ⟨e, he⟩ := h sample ((messageBytes sample sample.body).take 17)
    (List.take_prefix _ _) (by decide +kernel)
  have : (Message.de Dec.bytes ((messageBytes sample sample.body).take 17)).1 =
      .ok (sample.withBody [0xaa]) := by decide +kernel
  rw [this] at he
  cases he

/-! ### Builders -/

/-- A builder call on a message, with its argument. -/
inductive Spec.Call (β : Type) where
  | service (x : ServiceId)
  | method (x : MethodId)
  | id (x : MessageId)
  | client (x : ClientId)
  | session (x : SessionId)
  | protocol (x : ProtocolVersion)
  | interface (x : InterfaceVersion)
  | messageType (x : MessageType)
  | returnCode (x : ReturnCode)
  | header (x : Header)
  | body (x : β)
  | replaceHeader (x : Header)
  | replaceBody (x : β)

/-- Perform the call. -/
def Spec.Call.run (m : Message β) : Call β → Message β
  | .service x => m.withService x
  | .method x => m.withMethod x
  | .id x => m.withId x
  | .client x => m.withClient x
  | .session x => m.withSession x
  | .protocol x => m.withProtocol x
  | .interface x => m.withInterface x
  | .messageType x => m.withMessageType x
  | .returnCode x => m.withReturnCode x
  | .header x => m.withHeader x
  | .body x => m.withBody x
  | .replaceHeader x => (m.replaceHeader x).2
  | .replaceBody x => (m.replaceBody x).2

/-- The value the last call naming a field gives to it, or the old value. `names` tells what value,
if any, a call gives to the field. -/
def Spec.lastSet {α γ : Type} (names : γ → Option α) (old : α) (calls : List γ) : α :=
  match (calls.filterMap names).getLast? with
  | some x => x
  | none => old

theorem lastSet_cons {α γ : Type} (names : γ → Option α) (old : α) (c : γ) (cs : List γ) :
    lastSet names old (c :: cs) = lastSet names ((names c).getD old) cs := by
  simp only [lastSet, List.filterMap_cons]
  cases names c with
  | none => simp
  | some x =>
    simp only [Option.getD_some, List.getLast?_cons]
    cases (cs.filterMap names).getLast? <;> rfl

theorem lastSet_foldl {α γ σ : Type} (get : σ → α) (names : γ → Option α) (run : σ → γ → σ)
    (h : ∀ s c, get (run s c) = (names c).getD (get s)) (cs : List γ) (s : σ) :
    get (cs.foldl run s) = lastSet names (get s) cs := by
  induction cs generalizing s with
  | nil => rfl
  | cons c cs ih => rw [List.foldl_cons, ih, lastSet_cons, h]

/-- **C33.** After any sequence of builder calls every field of the message has the value of the last
call that names it, and its old value if none does. `with_id` names service and method;
`with_header` and `replace_header` name all header fields. -/
theorem C33_message_builders (m : Message β) (calls : List (Call β)) :
    let r := calls.foldl Call.run m
    r.service = lastSet (fun | .service x => some x | .id i => some i.service | _ => none)
      m.service calls ∧
    r.method = lastSet (fun | .method x => some x | .id i => some i.method | _ => none)
      m.method calls ∧
    r.client = lastSet (fun
      | .client x => some x | .header h => some h.client
      | .replaceHeader h => some h.client | _ => none) m.client calls ∧
    r.session = lastSet (fun
      | .session x => some x | .header h => some h.session
      | .replaceHeader h => some h.session | _ => none) m.session calls ∧
    r.protocol = lastSet (fun
      | .protocol x => some x | .header h => some h.protocol
      | .replaceHeader h => some h.protocol | _ => none) m.protocol calls ∧
    r.interface = lastSet (fun
      | .interface x => some x | .header h => some h.interface
      | .replaceHeader h => some h.interface | _ => none) m.interface calls ∧
    r.header.messageType = lastSet (fun
      | .messageType x => some ⟨x.asU8⟩
      | .header h => some h.messageType | .replaceHeader h => some h.messageType | _ => none)
      m.header.messageType calls ∧
    r.returnCode = lastSet (fun
      | .returnCode x => some x | .header h => some h.returnCode
      | .replaceHeader h => some h.returnCode | _ => none) m.returnCode calls ∧
    r.body = lastSet (fun
      | .body x => some x | .replaceBody x => some x | _ => none)
      m.body calls := by
  refine ⟨?_, ?_, ?_, ?_, ?_, ?_, ?_, ?_, ?_⟩
  · exact lastSet_foldl GenericMessage.service _ _ (by intro s c; cases c <;> rfl) _ _
  · exact lastSet_foldl GenericMessage.method _ _ (by intro s c; cases c <;> rfl) _ _
  · exact lastSet_foldl Message.client _ _ (by intro s c; cases c <;> rfl) _ _
  · exact lastSet_foldl Message.session _ _ (by intro s c; cases c <;> rfl) _ _
  · exact lastSet_foldl Message.protocol _ _ (by intro s c; cases c <;> rfl) _ _
  · exact lastSet_foldl Message.interface _ _ (by intro s c; cases c <;> rfl) _ _
  · exact lastSet_foldl (fun m : Message β => m.header.messageType) _ _
      (by intro s c; cases c <;> rfl) _ _
  · exact lastSet_foldl Message.returnCode _ _ (by intro s c; cases c <;> rfl) _ _
  · exact lastSet_foldl GenericMessage.body _ _ (by intro s c; cases c <;> rfl) _ _

/-- A builder call on a header. -/
inductive Spec.HeaderCall where
  | id (x : RequestId)
  | client (x : ClientId)
  | session (x : SessionId)
  | protocol (x : ProtocolVersion)
  | interface (x : InterfaceVersion)
  | messageType (x : MessageType)
  | returnCode (x : ReturnCode)

/-- Perform the call. -/
def Spec.HeaderCall.run (h : Header) : HeaderCall → Header
  | .id x => h.withId x
  | .client x => h.withClient x
  | .session x => h.withSession x
  | .protocol x => h.withProtocol x
  | .interface x => h.withInterface x
  | .messageType x => h.withMessageType x
  | .returnCode x => h.withReturnCode x

/-- **C33.** The same for the builders of `Header`; `Header::id` shows the last client and session. -/
theorem C33_header_builders (h : Header) (calls : List HeaderCall) :
    let r := calls.foldl HeaderCall.run h
    r.client = lastSet (fun | .client x => some x | .id i => some i.client | _ => none)
      h.client calls ∧
    r.session = lastSet (fun | .session x => some x | .id i => some i.session | _ => none)
      h.session calls ∧
    r.protocol = lastSet (fun | .protocol x => some x | _ => none) h.protocol calls ∧
    r.interface = lastSet (fun | .interface x => some x | _ => none) h.interface calls ∧
    r.messageType = lastSet (fun | .messageType x => some ⟨x.asU8⟩ | _ => none)
      h.messageType calls ∧
    r.returnCode = lastSet (fun | .returnCode x => some x | _ => none) h.returnCode calls ∧
    r.id.client = lastSet (fun | .client x => some x | .id i => some i.client | _ => none)
      h.client calls ∧
    r.id.session = lastSet (fun | .session x => some x | .id i => some i.session | _ => none)
      h.session calls := by
  refine ⟨?_, ?_, ?_, ?_, ?_, ?_, ?_, ?_⟩
  · exact lastSet_foldl Header.client _ _ (by intro s c; cases c <;> rfl) _ _
  · exact lastSet_foldl Header.session _ _ (by intro s c; cases c <;> rfl) _ _
  · exact lastSet_foldl Header.protocol _ _ (by intro s c; cases c <;> rfl) _ _
  · exact lastSet_foldl Header.interface _ _ (by intro s c; cases c <;> rfl) _ _
  · exact lastSet_foldl Header.messageType _ _ (by intro s c; cases c <;> rfl) _ _
  · exact lastSet_foldl Header.returnCode _ _ (by intro s c; cases c <;> rfl) _ _
  · exact lastSet_foldl Header.client _ _ (by intro s c; cases c <;> rfl) _ _
  · exact lastSet_foldl Header.session _ _ (by intro s c; cases c <;> rfl) _ _

/-- **C33.** A header built from `Header::new` has, where nothing was set, client 0, session handling
disabled, protocol version 1, interface version 0, type "request" without TP flag, code "ok". -/
theorem C33_default (calls : List HeaderCall) :
    let r := calls.foldl HeaderCall.run Header.new
    r.client.val = lastSet (fun | .client x => some x.val | .id i => some i.client.val | _ => none)
      0 calls ∧
    r.session.val = lastSet (fun | .session x => some x.val | .id i => some i.session.val | _ => none)
      0 calls ∧
    r.protocol.val = lastSet (fun | .protocol x => some x.val | _ => none) 1 calls ∧
    r.interface.val = lastSet (fun | .interface x => some x.val | _ => none) 0 calls ∧
    r.messageType.val = lastSet (fun | .messageType x => some x.asU8 | _ => none) 0 calls ∧
    r.returnCode = lastSet (fun | .returnCode x => some x | _ => none) .ok calls := by
  refine ⟨?_, ?_, ?_, ?_, ?_, ?_⟩
  · exact lastSet_foldl (fun h : Header => h.client.val) _ _ (by intro s c; cases c <;> rfl) _ _
  · exact lastSet_foldl (fun h : Header => h.session.val) _ _ (by intro s c; cases c <;> rfl) _ _
  · exact lastSet_foldl (fun h : Header => h.protocol.val) _ _ (by intro s c; cases c <;> rfl) _ _
  · exact lastSet_foldl (fun h : Header => h.interface.val) _ _ (by intro s c; cases c <;> rfl) _ _
  · exact lastSet_foldl (fun h : Header => h.messageType.val) _ _ (by intro s c; cases c <;> rfl) _ _
  · exact lastSet_foldl Header.returnCode _ _ (by intro s c; cases c <;> rfl) _ _

example : ([.client ⟨9⟩, .returnCode .notOk].foldl HeaderCall.run Header.new) =
    ⟨⟨9⟩, ⟨0⟩, ⟨1⟩, ⟨0⟩, ⟨0⟩, .notOk⟩ := by decide

/-- **C33.** `map` keeps the ids and gives the parts to the function; one `map` after another is one with
both functions. `map_header`, `map_body`, `with_header` and `with_body` leave the other part alone. The
`replace` calls return the old part, and putting it back gives the message there was. -/
theorem C33_map_replace {η τ υ τ' υ' : Type} (m : GenericMessage η β) (f : η → β → τ × υ)
    (f' : τ → υ → τ' × υ') (g : η → τ) (k : β → υ) (x : η) (y : β) :
    (m.map f).id = m.id ∧ ((m.map f).header, (m.map f).body) = f m.header m.body ∧
    (m.map f).map f' = m.map (fun h b => f' (f h b).1 (f h b).2) ∧ m.map Prod.mk = m ∧
    (m.mapHeader g).mapBody k = m.map (fun h b => (g h, k b)) ∧
    (m.mapBody k).mapHeader g = m.map (fun h b => (g h, k b)) ∧
    (m.mapHeader g).body = m.body ∧ (m.mapBody k).header = m.header ∧
    (∀ (t : τ) (u : υ), (m.withHeader t).withBody u = m.map (fun _ _ => (t, u)) ∧
      (m.withBody u).withHeader t = m.map (fun _ _ => (t, u)) ∧
      (m.withHeader t).body = m.body ∧ (m.withBody u).header = m.header) ∧
    (m.replaceHeader x).1 = m.header ∧ (m.replaceHeader x).2 = m.withHeader x ∧
    (m.replaceHeader x).2.replaceHeader m.header = (x, m) ∧
    (m.replaceBody y).1 = m.body ∧ (m.replaceBody y).2 = m.withBody y ∧
    (m.replaceBody y).2.replaceBody m.body = (y, m) ∧
    (GenericMessage.new x y).id.asU32 = 0 ∧ (GenericMessage.new x y).header = x ∧
    (GenericMessage.new x y).body = y ∧ m.id.service = m.service ∧ m.id.method = m.method :=
  ⟨rfl, rfl, rfl, rfl, rfl, rfl, rfl, rfl, fun _ _ => ⟨rfl, rfl, rfl, rfl⟩, rfl, rfl, rfl, rfl, rfl, rfl,
    (by decide : (⟨⟨0⟩, ⟨0⟩⟩ : MessageId).asU32 = 0), rfl, rfl, rfl, rfl⟩

example : ([.service ⟨1⟩, .id ⟨⟨2⟩, ⟨3⟩⟩, .client ⟨9⟩, .method ⟨4⟩].foldl Call.run sample) =
    ⟨⟨2⟩, ⟨4⟩, ⟨⟨9⟩, ⟨0xdef0⟩, ⟨1⟩, ⟨2⟩, ⟨0x80⟩, .notOk⟩, [0xaa, 0xbb]⟩ := by decide

/-- **C34.** `into_response` and `into_error` keep the conversation: only the message type and the
return code change, to the type named (with the TP flag clear) and the code given. -/
theorem C34_answers (m : Message β) (c : ReturnCode) :
    m.intoResponse c =
      { m with header := { m.header with messageType := ⟨0x80⟩, returnCode := c } } ∧
    m.intoError c =
      { m with header := { m.header with messageType := ⟨0x81⟩, returnCode := c } } ∧
    (m.intoResponse c).messageType = .response ∧ (m.intoError c).messageType = .error :=
  ⟨rfl, rfl, show MessageTypeField.asType ⟨0x80⟩ = .response by decide,
    show MessageTypeField.asType ⟨0x81⟩ = .error by decide⟩

example : (sample.intoError .notReady).header =
    ⟨⟨0x9abc⟩, ⟨0xdef0⟩, ⟨1⟩, ⟨2⟩, ⟨0x81⟩, .notReady⟩ := by decide

end Rsomeip
