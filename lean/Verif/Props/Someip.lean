import Verif.Lemmas.Someip
import Verif.Props.Proto.Message

/-! # C51: both crates speak the same wire format -/

namespace Rsomeip

open Spec

variable {β : Type}

/-- A message of `rsomeip-proto` and a message of `rsomeip` say the same: all numbers agree. -/
structure Spec.Corresponds (m : Proto.Message β) (s : Someip.Message β) : Prop where
  service : m.service.val = s.service
  method : m.method.val = s.method
  client : m.client.val = s.client
  session : m.session.val = s.session
  protocol : m.protocol.val = s.protocol
  interface : m.interface.val = s.interface
  messageType : m.header.messageType.val = s.messageType.asU8
  returnCode : m.returnCode.asU8 = s.returnCode.asU8
  payload : m.body = s.payload

theorem messageBytes_corresponds {m : Proto.Message β} {s : Someip.Message β}
    (h : Corresponds m s) (bs : Bytes) : messageBytes m bs =
      be 2 s.service.toNat ++ be 2 s.method.toNat ++ be 4 (8 + bs.length) ++
        Someip.headBytes s.client s.session s.protocol s.interface s.messageType.asU8
          s.returnCode.asU8 ++ bs := by
  have h1 := h.client
  have h2 := h.session
  have h3 := h.protocol
  have h4 := h.interface
  have h5 := h.returnCode
  simp only [Proto.Message.client, Proto.Message.session, Proto.Message.protocol,
    Proto.Message.interface, Proto.Message.returnCode] at h1 h2 h3 h4 h5
  simp only [messageBytes, headerBytes, Someip.headBytes, h.service, h.method, h1, h2, h3, h4,
    h.messageType, Proto.codeNumber_eq, h5]

/-- **C51.** Corresponding messages are serialized alike: same result and same bytes, on growable
buffers and on buffers with enough room, and the same size hint. This includes failures. -/
theorem C51_same_bytes (b : Ser β) (m : Proto.Message β) (s : Someip.Message β)
    (h : Corresponds m s) (bs : Bytes) (hb : Payload b m.body bs) :
    (∀ d, (Proto.Message.ser b).serialize m ⟨d, none⟩ =
      (Someip.Message.ser b).serialize s ⟨d, none⟩) ∧
    (∀ d n, 16 + bs.length ≤ n → (Proto.Message.ser b).serialize m ⟨d, some n⟩ =
      (Someip.Message.ser b).serialize s ⟨d, some n⟩) ∧
    (Proto.Message.ser b).sizeHint m = (Someip.Message.ser b).sizeHint s := by
  have hb' : Payload b s.payload bs := h.payload ▸ hb
  refine ⟨?_, ?_, by rw [Proto.hint_message hb, Someip.hint_someip hb']⟩
  · intro d
    by_cases hl : 8 + bs.length < 2 ^ 32
    · rw [(Proto.good_message hb hl).grow, (Someip.good_someip hb' hl).grow,
        messageBytes_corresponds h]
    · rw [(Proto.message_tooLong hb (by omega)).grow, (Someip.tooLong hb' (by omega)).grow,
        h.service, h.method]
  · intro d n hn
    by_cases hl : 8 + bs.length < 2 ^ 32
    · have hlen := Proto.messageBytes_length m bs
      rw [(Proto.good_message hb hl).room _ _ (by omega)]
      rw [messageBytes_corresponds h] at hlen ⊢
      rw [(Someip.good_someip hb' hl).room _ _ (by omega)]
    · rw [(Proto.message_tooLong hb (by omega)).room _ _ (by simp; omega),
        (Someip.tooLong hb' (by omega)).room _ _ (by simp; omega),
        h.service, h.method]

theorem someip_types (x : UInt8) : (Someip.MessageType.fromU8 x).asU8 = x :=
  Proto.forall_u8 (p := fun x => (Someip.MessageType.fromU8 x).asU8 = x) (by decide +kernel) x

theorem someip_codes (x : UInt8) : (Someip.ReturnCode.fromU8 x).asU8 = x :=
  Proto.forall_u8 (p := fun x => (Someip.ReturnCode.fromU8 x).asU8 = x) (by decide +kernel) x

/-- **C51.** On every input, with every payload type, the two decoders succeed together, leave the
same rest, and give corresponding messages. -/
theorem C51_same_decoding (d : Dec β) (b r : Bytes) :
    (∀ m, Proto.Message.de d b = (.ok m, r) →
      ∃ s, Someip.Message.de d b = (.ok s, r) ∧ Corresponds m s) ∧
    (∀ s, Someip.Message.de d b = (.ok s, r) →
      ∃ m, Proto.Message.de d b = (.ok m, r) ∧ Corresponds m s) := by
  by_cases hs : b.length < 16 ∨ beToNat ((b.drop 4).take 4) < 8
  · obtain ⟨e, a, r1, h1⟩ := Someip.de_refused d b hs
    have h2 : ∃ e a r, Proto.Message.de d b = (.err (.insufficientData e a), r) := by
      by_cases h16 : b.length < 16
      · exact C32_short d b h16
      · obtain ⟨s, me, L, h, rest, hb, hL, _⟩ := Proto.layout_of_bytes b (by omega)
        have hlt := hs.resolve_left h16
        rw [hb] at hlt ⊢
        rw [show be 2 s.val.toNat ++ be 2 me.val.toNat ++ be 4 L ++ headerBytes h ++ rest =
          (be 2 s.val.toNat ++ be 2 me.val.toNat) ++ be 4 L ++ (headerBytes h ++ rest) by simp]
          at hlt ⊢
        refine C32_small_length d _ L _ (by simp) ?_
        rw [List.append_assoc, List.drop_left' (by simp), List.take_left' (be_length 4 L),
          be_eq_natToBE, beToNat_natToBE] at hlt
        omega
    obtain ⟨e', a', r2, h2⟩ := h2
    constructor
    · intro m hm; rw [h2] at hm; cases hm
    · intro m hm; rw [h1] at hm; cases hm
  · obtain ⟨s, me, L, h, rest, hb, hL, hc⟩ := Proto.layout_of_bytes b (by omega)
    have h8 : 8 ≤ L := by
      have hge : ¬ beToNat ((b.drop 4).take 4) < 8 := fun h => hs (.inr h)
      rw [hb, show be 2 s.val.toNat ++ be 2 me.val.toNat ++ be 4 L ++ headerBytes h ++ rest =
          (be 2 s.val.toNat ++ be 2 me.val.toNat) ++ (be 4 L ++ (headerBytes h ++ rest)) by simp,
        List.drop_left' (by simp), List.take_left' (be_length 4 L), be_eq_natToBE,
        beToNat_natToBE] at hge
      omega
    have h1 := Proto.de_layout d s me L h rest h8 hL
    have h2 := Someip.de_layout d s.val me.val h.client.val h.session.val h.protocol.val
      h.interface.val h.messageType.val (codeNumber h.returnCode) L rest h8 hL
    rw [show Someip.headBytes h.client.val h.session.val h.protocol.val
      h.interface.val h.messageType.val (codeNumber h.returnCode) = headerBytes h from rfl] at h2
    rw [hb, h1, h2]
    cases d (rest.take (L - 8)) with
    | mk o r' =>
      cases o with
      | ok v =>
        have hcor : Corresponds (⟨s, me, { h with returnCode := codeOf (codeNumber h.returnCode) },
            v⟩ : Proto.Message β) ⟨s.val, me.val, h.client.val, h.session.val, h.protocol.val,
            h.interface.val, Someip.MessageType.fromU8 h.messageType.val,
            Someip.ReturnCode.fromU8 (codeNumber h.returnCode), v⟩ :=
          ⟨rfl, rfl, rfl, rfl, rfl, rfl, (someip_types _).symm, by
            show (codeOf (codeNumber h.returnCode)).asU8 = _
            rw [someip_codes, ← Proto.codeNumber_eq, Proto.codeNumber_codeOf], rfl⟩
        constructor
        · intro m hm; cases hm; exact ⟨_, rfl, hcor⟩
        · intro m hm; cases hm; exact ⟨_, rfl, hcor⟩
      | err e => exact ⟨nofun, nofun⟩
      | panic => exact ⟨nofun, nofun⟩
      | diverge => exact ⟨nofun, nofun⟩

/-- **C51.** Each crate decodes what the other one writes, to the corresponding message. -/
theorem C51_interoperate (b : Ser β) (d : Dec β) (m : Proto.Message β) (s : Someip.Message β)
    (h : Corresponds m s) (bs : Bytes) (hb : Payload b m.body bs) (hd : d bs = (.ok m.body, []))
    (hl : 8 + bs.length < 2 ^ 32) (rest : Bytes) :
    (∃ n out, (Proto.Message.ser b).serialize m ⟨[], none⟩ = (.ok n, ⟨out, none⟩) ∧
      ∃ s', Someip.Message.de d (out ++ rest) = (.ok s', rest) ∧ Corresponds m s') ∧
    (∃ n out, (Someip.Message.ser b).serialize s ⟨[], none⟩ = (.ok n, ⟨out, none⟩) ∧
      ∃ m', Proto.Message.de d (out ++ rest) = (.ok m', rest) ∧ Corresponds m' s) := by
  have hser := (Proto.good_message hb hl).grow []
  have hde := (C30_round_trip b d m bs hb hd hl _ _ hser rest).1
  have heq := (C51_same_bytes b m s h bs hb).1 []
  have hcode : ∀ c : Proto.ReturnCode, (codeOf (codeNumber c)).asU8 = c.asU8 := fun c => by
    rw [← Proto.codeNumber_eq, Proto.codeNumber_codeOf, Proto.codeNumber_eq]
  refine ⟨⟨_, _, hser, ?_⟩, ⟨_, _, heq ▸ hser, _, hde, ?_⟩⟩
  · obtain ⟨s', h1, h2⟩ := (C51_same_decoding d _ rest).1 _ hde
    refine ⟨s', h1, ⟨h2.service, h2.method, h2.client, h2.session, h2.protocol, h2.interface,
      h2.messageType, ?_, h2.payload⟩⟩
    rw [← h2.returnCode]
    exact (hcode _).symm
  · exact ⟨h.service, h.method, h.client, h.session, h.protocol, h.interface, h.messageType,
      (hcode _).trans h.returnCode, h.payload⟩

/-- **C51.** The `rsomeip` message alone round-trips: what comes back agrees with the original in
every number. -/
theorem C51_rsomeip_round_trip (b : Ser β) (d : Dec β) (s : Someip.Message β) (bs : Bytes)
    (hb : Payload b s.payload bs) (hd : d bs = (.ok s.payload, [])) (hl : 8 + bs.length < 2 ^ 32)
    (rest : Bytes) :
    ∃ n out, (Someip.Message.ser b).serialize s ⟨[], none⟩ = (.ok n, ⟨out, none⟩) ∧
      Someip.Message.de d (out ++ rest) =
        (.ok ((s.withType (.fromU8 s.messageType.asU8)).withCode (.fromU8 s.returnCode.asU8)),
          rest) := by
  have hser := (Someip.good_someip hb hl).grow []
  refine ⟨_, _, hser, ?_⟩
  have := Someip.de_layout d s.service s.method s.client s.session s.protocol s.interface
    s.messageType.asU8 s.returnCode.asU8 (8 + bs.length) (bs ++ rest) (by omega) hl
  rw [Nat.add_sub_cancel_left, List.take_left, List.drop_left, hd] at this
  simp only [List.nil_append, List.append_assoc] at this ⊢
  exact this

/-- The message of the examples, in `rsomeip`'s form. -/
def Spec.sampleSomeip : Someip.Message Bytes :=
  ⟨0x1234, 0x5678, 0x9abc, 0xdef0, 1, 2, .response, .notOk, [0xaa, 0xbb]⟩

example : Corresponds sample sampleSomeip := ⟨rfl, rfl, rfl, rfl, rfl, rfl, rfl, rfl, rfl⟩

example : Someip.Message.de Dec.bytes (messageBytes sample sample.body) = (.ok sampleSomeip, []) := by
  decide +kernel

end Rsomeip
