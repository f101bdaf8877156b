import Verif.Spec.Sample
import Verif.Props.Resend
import Verif.Props.Proto.Endpoint
import Verif.Props.Proto.Ids

/-! # Lemmas about the sample programs -/

namespace Rsomeip

open Spec Proto

theorem Dec.Exact.inv {α : Type} {d : Dec α} {k : Nat} (h : d.Exact k) {b r : Bytes} {v : α}
    (e : d b = (.ok v, r)) : k ≤ b.length ∧ r = b.drop k := by
  by_cases hk : b.length < k
  · obtain ⟨x, a, r', he⟩ := h.short b hk
    rw [he] at e
    cases e
  · obtain ⟨w, hw⟩ := h.ok b (by omega)
    rw [hw] at e
    cases e
    exact ⟨by omega, rfl⟩

/-- What a message read from bytes looks like. -/
theorem message_read {b r : Bytes} {m : Message Bytes} (h : Message.de Dec.bytes b = (.ok m, r)) :
    CodeOk m.header.returnCode ∧ 16 + m.body.length ≤ b.length := by
  obtain ⟨⟨s, me, ⟨⟩⟩, r1, h1, h2⟩ := Dec.bind_inv h
  obtain ⟨⟨hd, bo, ⟨⟩⟩, r2, h3, h4⟩ := Dec.bind_inv h2
  cases h4
  have hids : ((Dec.tcons ServiceId.de (Dec.tcons MethodId.de Dec.tnil)).Exact 4) :=
    ((Dec.exact_prim 2 _).map _).bind fun _ =>
      (((Dec.exact_prim 2 _).map _).bind fun _ => (Dec.exact_pure ()).bind fun _ =>
        Dec.exact_pure _).bind fun _ => Dec.exact_pure _
  obtain ⟨hb4, rfl⟩ := hids.inv h1
  obtain ⟨field, bd, n, r', he, hf, -, hin, -⟩ := len_inv h3
  obtain ⟨hd', r3, h5, h6⟩ := Dec.bind_inv hin
  obtain ⟨⟨bo', ⟨⟩⟩, r4, h7, h8⟩ := Dec.bind_inv h6
  cases h8
  obtain ⟨bo'', r5, h9, h10⟩ := Dec.bind_inv h7
  cases h10
  rw [Dec.bytes_apply] at h9
  cases h9
  obtain ⟨h8', rfl⟩ := exact_header.inv h5
  have hl := congrArg List.length he
  simp only [List.length_drop, List.length_append, hf, lenWidth] at hl
  simp only [List.length_take] at h8'
  constructor
  · obtain ⟨hx, hxb, -⟩ := header_of_bytes ((bd.take n).take 8) (by simp; omega)
    have := reads_header hx ((bd.take n).drop 8)
    rw [hxb, List.take_append_drop, h5] at this
    cases this
    exact codeOk_codeOf _
  · simp only [List.length_drop, List.length_take]
    omega

namespace Proto.Sample

open Spec.Sample

theorem wire_vec_u8 (bs : Bytes) : wire (.vec .u8) bs = bs := by
  show bs.flatMap (fun x : UInt8 => wire .u8 x) = bs
  induction bs with
  | nil => rfl
  | cons x xs ih =>
    rw [List.flatMap_cons, ih]
    show [_] ++ xs = x :: xs
    simp

theorem payload_body (bs : Bytes) : Payload body bs bs := by
  have := payload_universe (.vec .u8) bs (fun _ _ => trivial)
  rwa [wire_vec_u8] at this

theorem bodyDe_eq : bodyDe = Dec.bytes := by
  funext b
  have := reads_wellFormed .little (.vec .u8) b rfl rfl (fun _ _ => trivial) (fun _ _ => trivial)
  rw [wire_vec_u8] at this
  rw [Dec.bytes_apply]
  exact this

theorem get_endpoint (k : ServiceId) (i : Interface) (s : ServiceId) :
    (Endpoint.new.withInterface k i).get s = if s = k then some i else none := by
  show ((Map.empty.insert k i).2.get s) = _
  rw [Map.get_insert]
  by_cases h : s = k
  · rw [if_pos h, if_pos h.symm]
  · rw [if_neg h, if_neg (Ne.symm h)]
    rfl

theorem get_interface (k : MethodId) :
    (Interface.default.withMethod method).get k = if k = method then some .method else none := by
  show ((Map.empty.insert method MethodType.method).2.get k) = _
  rw [Map.get_insert]
  by_cases h : k = method
  · rw [if_pos h, if_pos h.symm]
  · rw [if_neg h, if_neg (Ne.symm h)]
    rfl

theorem legal_stub_in (m : Message Bytes) : LegalAt stub m .incoming ↔ IsRequest m := by
  simp only [LegalAt, stub, get_endpoint, Legal]
  constructor
  · rintro ⟨hp, i, hi, hv, k, hk, ht⟩
    split at hi
    · cases hi
      have hk : (Interface.default.withMethod method).get m.method = some k := hk
      rw [get_interface] at hk
      split at hk
      · cases hk
        refine ⟨by assumption, by assumption, hp, hv, ?_⟩
        simpa [legalTable, Interface.intoStub] using ht
      · cases hk
    · cases hi
  · rintro ⟨hs, hm, hp, hv, ht⟩
    refine ⟨hp, _, if_pos hs, hv, .method, ?_, ?_⟩
    · show (Interface.default.withMethod method).get m.method = _
      exact (get_interface _).trans (if_pos hm)
    · rw [ht]
      simp [legalTable, Interface.intoStub]

theorem legal_proxy_in (m : Message Bytes) : LegalAt proxy m .incoming ↔ IsAnswer m := by
  simp only [LegalAt, proxy, get_endpoint, Legal]
  constructor
  · rintro ⟨hp, i, hi, hv, k, hk, ht⟩
    split at hi
    · cases hi
      have hk : (Interface.default.withMethod method).get m.method = some k := hk
      rw [get_interface] at hk
      split at hk
      · cases hk
        refine ⟨by assumption, by assumption, hp, hv, ?_⟩
        simpa [legalTable, Interface.intoProxy] using ht
      · cases hk
    · cases hi
  · rintro ⟨hs, hm, hp, hv, ht⟩
    refine ⟨hp, _, if_pos hs, hv, .method, ?_, ?_⟩
    · show (Interface.default.withMethod method).get m.method = _
      exact (get_interface _).trans (if_pos hm)
    · rcases ht with ht | ht <;> rw [ht] <;> simp [legalTable, Interface.intoProxy]

theorem legal_out (fl : InterfaceType) (t : MessageType) (m : Message Bytes) (e : Endpoint)
    (he : e = Endpoint.new.withInterface service
      { Interface.default.withMethod method with flavor := fl })
    (hs : m.service = service) (hm : m.method = method) (hp : m.header.protocol = ⟨1⟩)
    (hv : m.header.interface = ⟨0⟩) (ht : m.messageType = t) (d : Direction)
    (hmem : (d, fl, MethodType.method, t) ∈ legalTable) : LegalAt e m d := by
  subst he
  refine ⟨hp, _, (get_endpoint ..).trans (if_pos hs), hv, .method, ?_, ?_⟩
  · show (Interface.default.withMethod method).get m.method = _
    exact (get_interface _).trans (if_pos hm)
  · rw [ht]; exact hmem

theorem reply_eq (q : Message Bytes) : q.withMessageType .response = reply q := rfl

theorem encode_legal (e : Endpoint) (m : Message Bytes) (hl : LegalAt e m .outgoing)
    (hs : 8 + m.body.length < 2 ^ 32) : encode e m = .done (messageBytes m m.body) := by
  simp only [encode, C39_accepted body e m m.body [] (payload_body _) hl hs, List.nil_append]

theorem decode_iff (e : Endpoint) (b : Bytes) (m : Message Bytes) :
    decode e b = .done m ↔ (∃ r, Message.de Dec.bytes b = (.ok m, r)) ∧ LegalAt e m .incoming := by
  have h := fun r => C38_poll_iff bodyDe e b m r
  rw [bodyDe_eq] at h
  simp only [decode, bodyDe_eq]
  generalize e.poll Dec.bytes b = p at h
  obtain ⟨o, r⟩ := p
  constructor
  · intro hd
    have : o = .done (.ok m) := by
      cases o with
      | done x => cases x <;> simp_all
      | panic => cases hd
      | diverge => cases hd
    subst this
    obtain ⟨h1, h2⟩ := (h r).mp rfl
    exact ⟨⟨r, h1⟩, h2⟩
  · rintro ⟨⟨r', h1⟩, h2⟩
    have := (h r').mpr ⟨h1, h2⟩
    cases this
    rfl

theorem read_total (b : Bytes) : (∃ m r, Message.de Dec.bytes b = (.ok m, r)) ∨
    ∃ e r, Message.de Dec.bytes b = (.err e, r) := by
  by_cases h : b.length < 16
  · obtain ⟨e, a, r, h⟩ := C32_short Dec.bytes b h
    exact .inr ⟨_, _, h⟩
  · obtain ⟨s, m, L, hd, rest, rfl, hL, -⟩ := layout_of_bytes b (by omega)
    by_cases h8 : 8 ≤ L
    · left
      rw [de_layout _ _ _ _ _ _ h8 hL, Dec.bytes_apply]
      exact ⟨_, _, rfl⟩
    · obtain ⟨e, a, r, h⟩ := C32_small_length Dec.bytes
        (be 2 s.val.toNat ++ be 2 m.val.toNat) L (headerBytes hd ++ rest) (by simp) (by omega)
      rw [← List.append_assoc] at h
      exact .inr ⟨_, _, h⟩

theorem decode_total (e : Endpoint) (b : Bytes) : decode e b ≠ .hang := by
  obtain ⟨x, hx⟩ := C38_total bodyDe e b (by
    rw [bodyDe_eq]
    rcases read_total b with ⟨m, r, h⟩ | ⟨y, r, h⟩ <;> simp [h])
  simp only [decode, hx]
  cases x <;> simp

theorem read_written (m : Message Bytes) (hs : 8 + m.body.length < 2 ^ 32)
    (hc : CodeOk m.header.returnCode) :
    Message.de Dec.bytes (messageBytes m m.body) = (.ok m, []) := by
  have := (C30_round_trip Ser.bytes Dec.bytes m m.body (payload_bytes _) (Dec.bytes_apply _) hs _ _
    ((good_message (payload_bytes _) hs).grow []) []).2 hc
  simpa using this

theorem messageBytes_receive (m : Message Bytes) (h : m.body.length ≤ 48) :
    receive (messageBytes m m.body) = messageBytes m m.body :=
  List.take_of_length_le (by rw [messageBytes_length]; simp only [bufferSize]; omega)

theorem reply_request {q : Message Bytes} (h : IsRequest q) :
    LegalAt stub (reply q) .outgoing ∧ LegalAt proxy (reply q) .incoming := by
  obtain ⟨hs, hm, hp, hv, ht⟩ := h
  have ht : (reply q).messageType = .response := by
    show MessageTypeField.asType ⟨0x80⟩ = _
    decide
  exact ⟨legal_out .stub .response (reply q) stub rfl hs hm hp hv ht _ (by simp [legalTable]),
    legal_out .proxy .response (reply q) proxy rfl hs hm hp hv ht _ (by simp [legalTable])⟩

theorem answer_iff (b : Bytes) (q a : Message Bytes) (r : Bytes) :
    answer b = .done (q, a, r) ↔ (∃ rest, Message.de Dec.bytes (b.take 64) = (.ok q, rest)) ∧
      IsRequest q ∧ a = reply q ∧ r = messageBytes a a.body := by
  have hd := decode_iff stub (receive b)
  simp only [answer]
  constructor
  · intro h
    split at h
    · cases h
    · cases h
    next q' hq =>
      obtain ⟨⟨rest, hr⟩, hl⟩ := (hd q').mp hq
      have hreq := (legal_stub_in q').mp hl
      have hlen := (message_read hr).2
      have : (receive b).length ≤ 64 := by simp [receive, bufferSize]
      rw [reply_eq, encode_legal stub (reply q') (reply_request hreq).1
        (by show 8 + q'.body.length < _; omega)] at h
      cases h
      exact ⟨⟨rest, hr⟩, hreq, rfl, rfl⟩
  · rintro ⟨⟨rest, hr⟩, hreq, rfl, rfl⟩
    have hlen := (message_read hr).2
    have : (b.take 64).length ≤ 64 := by simp
    rw [(hd q).mpr ⟨⟨rest, hr⟩, (legal_stub_in q).mpr hreq⟩]
    simp only []
    rw [reply_eq, encode_legal stub (reply q) (reply_request hreq).1
      (by show 8 + q.body.length < _; omega)]

theorem question_request (k : Nat) : IsRequest (question k) :=
  ⟨rfl, rfl, rfl, rfl, by show MessageTypeField.asType ⟨0⟩ = _; decide⟩

theorem question_after (k : Nat) :
    Message.withSession request (after SessionId.enabled k) = question k := by
  have h := C26_numbers.1 k
  have : after SessionId.enabled k = ⟨UInt16.ofNat (k % 65535 + 1)⟩ := by
    rw [← h]
    simp
  rw [this]
  rfl

theorem ask_question (k : Nat) :
    encode proxy (question k) = .done (messageBytes (question k) (question k).body) :=
  encode_legal _ _ (legal_out .proxy .request _ _ rfl rfl rfl rfl rfl (question_request k).2.2.2.2 _
    (by simp [legalTable])) (by show 8 + 10 < _; omega)

theorem answer_question (k : Nat) : answer (messageBytes (question k) (question k).body) =
    .done (question k, reply (question k),
      messageBytes (reply (question k)) (question k).body) := by
  rw [answer_iff]
  refine ⟨⟨[], ?_⟩, question_request k, rfl, rfl⟩
  have := messageBytes_receive (question k) (by show 10 ≤ 48; omega)
  simp only [receive, bufferSize] at this
  rw [this, read_written _ (by show 8 + 10 < _; omega) (codeOk_codeOf 0)]

theorem hear_reply (k : Nat) : decode proxy (receive (messageBytes (reply (question k))
    (question k).body)) = .done (reply (question k)) := by
  rw [decode_iff]
  refine ⟨⟨[], ?_⟩, (reply_request (question_request k)).2⟩
  have := messageBytes_receive (reply (question k)) (by show 10 ≤ 48; omega)
  have h2 : (reply (question k)).body = (question k).body := rfl
  rw [h2] at this
  rw [this, ← h2, read_written _ (by show 8 + 10 < _; omega) (codeOk_codeOf 0)]

end Proto.Sample

end Rsomeip
