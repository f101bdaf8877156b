import Verif.Spec.TpFlag
import Verif.Props.Proto.Tp
import Verif.Props.Proto.Endpoint
import Verif.Props.Proto.TpMany

/-! # C113: segments can be told from whole messages -/

namespace Rsomeip

open Spec Proto

namespace TpFlag

theorem mark_field (f : MessageTypeField) : (f.withFlags 0x20 true).isTp = true ∧
    (f.withFlags 0x20 true).asType = f.asType ∧ (f.withFlags 0x20 false).isTp = false ∧
    (f.withFlags 0x20 false).asType = f.asType ∧
    (f.isTp = false → (f.withFlags 0x20 true).withFlags 0x20 false = f) := by
  obtain ⟨x⟩ := f
  exact forall_u8 (p := fun x => ((⟨x⟩ : MessageTypeField).withFlags 0x20 true).isTp = true ∧
    ((⟨x⟩ : MessageTypeField).withFlags 0x20 true).asType = (⟨x⟩ : MessageTypeField).asType ∧
    ((⟨x⟩ : MessageTypeField).withFlags 0x20 false).isTp = false ∧
    ((⟨x⟩ : MessageTypeField).withFlags 0x20 false).asType = (⟨x⟩ : MessageTypeField).asType ∧
    ((⟨x⟩ : MessageTypeField).isTp = false →
      ((⟨x⟩ : MessageTypeField).withFlags 0x20 true).withFlags 0x20 false = ⟨x⟩)) (by decide +kernel) x

theorem legal_same {β γ : Type} (e : Endpoint) (m : Message β) (m' : Message γ) (d : Direction)
    (hs : m'.service = m.service) (hm : m'.method = m.method)
    (hp : m'.header.protocol = m.header.protocol) (hi : m'.header.interface = m.header.interface)
    (ht : m'.messageType = m.messageType) : LegalAt e m' d ↔ LegalAt e m d := by
  unfold LegalAt Legal
  rw [hs, hm, hp, hi, ht]

/-- What a receiver of raw messages makes of a segment. -/
theorem segment_raw {m : Message Bytes} {s : TpHeader} {p : Bytes} (h : SegmentPacket m s p)
    (hc : CodeOk m.returnCode) (hb : 12 + m.body.length < 2 ^ 32) (later : Bytes) :
    ∃ b, Message.de Dec.bytes (p ++ later) = (.ok (m.withBody b), later) ∧
      Message.intoSegment (m.withBody b) = .ok (m.withBody s) := by
  obtain ⟨limit, segs, hl, hs, hmem, hp⟩ := h
  obtain ⟨f, r, rfl⟩ := Many.splits_cons hs
  obtain ⟨p', hp', -, hd⟩ := (C50_end_to_end m limit hl hc hb f r hs).1 s hmem
  rw [hp] at hp'
  cases hp'
  obtain ⟨-, m', h1, h2⟩ := hd later
  refine ⟨m'.body, ?_⟩
  have : m' = m.withBody m'.body := by
    have h3 : ∃ h, Message.intoSegment m' = .ok (m'.withBody h) := by
      unfold Message.intoSegment at h2 ⊢
      split at h2
      · exact ⟨_, rfl⟩
      all_goals cases h2
    obtain ⟨h, h3⟩ := h3
    rw [h2] at h3
    injection h3 with h3
    have e1 := congrArg GenericMessage.service h3
    have e2 := congrArg GenericMessage.method h3
    have e3 := congrArg GenericMessage.header h3
    obtain ⟨a, b, c, d⟩ := m'
    obtain ⟨a', b', c', d'⟩ := m
    simp only [GenericMessage.withBody] at e1 e2 e3 ⊢
    subst e1 e2 e3
    rfl
  rw [← this]
  exact ⟨h1, h2⟩

end TpFlag

open TpFlag

/-- **C113 fails as stated.** Nothing in the library marks segments: a segment of a message that is not
marked is not marked either, and every endpoint that accepts the message accepts each of its segments as
a whole message, with another body, which begins with the segment's own header. -/
theorem C113_unmarked (e : Endpoint) (m : Message Bytes) (s : TpHeader) (p later : Bytes)
    (hc : CodeOk m.returnCode) (hb : 12 + m.body.length < 2 ^ 32) (hm : ¬ Marked m)
    (he : LegalAt e m .incoming) (h : SegmentPacket m s p) :
    ∃ m' : Message Bytes, e.poll Dec.bytes (p ++ later) = (.done (.ok m'), later) ∧ ¬ Marked m' ∧
      4 ≤ m'.body.length ∧ m'.intoSegment = .ok (m.withBody s) := by
  obtain ⟨b, h1, h2⟩ := segment_raw h hc hb later
  refine ⟨m.withBody b, (C38_poll_iff _ e _ _ _).mpr ⟨h1, (legal_same e m _ _ rfl rfl rfl rfl rfl).mpr he⟩,
    hm, ?_, h2⟩
  refine Nat.le_of_not_lt fun (hlt : b.length < 4) => ?_
  unfold Message.intoSegment at h2
  rw [show (m.withBody b).body = b from rfl, show TpHeader.de b = _ from
    Dec.bind_err (by rw [Dec.u32, Dec.prim_short _ hlt])] at h2
  cases h2

/-- **C113**, the part that holds: if the caller marks messages before splitting them, and only those,
then all segments are marked and whole messages are not, and the marks make no difference to which
messages endpoints accept. After reassembly the message is marked still, and clearing the flag gives the
original. Missing: callers that leave this to the library (`C113_unmarked`). -/
theorem C113_marked_partial (e : Endpoint) (m : Message Bytes) (hc : CodeOk m.returnCode)
    (hb : 12 + m.body.length < 2 ^ 32) (hm : ¬ Marked m) :
    (∀ s p later, SegmentPacket (mark m) s p → LegalAt e m .incoming →
      ∃ m' : Message Bytes, e.poll Dec.bytes (p ++ later) = (.done (.ok m'), later) ∧ Marked m' ∧
        m'.intoSegment = .ok ((mark m).withBody s)) ∧
    (∀ later, LegalAt e m .incoming → e.poll Dec.bytes (messageBytes m m.body ++ later) =
      (.done (.ok m), later)) ∧
    (∀ d, LegalAt e (mark m) d ↔ LegalAt e m d) ∧
    (∀ limit first rest, 16 ≤ limit → Splits limit (mark m).wrapSegment.body (first :: rest) →
      ∃ whole, joinAll first rest = .ok whole ∧ Marked (Message.unwrapSegment ((mark m).withBody whole)) ∧
        unmark (Message.unwrapSegment ((mark m).withBody whole)) = m) := by
  obtain ⟨f1, f2, f3, f4, f5⟩ := mark_field m.header.messageType
  have hlegal : ∀ d, LegalAt e (mark m) d ↔ LegalAt e m d := fun d =>
    legal_same e m _ d rfl rfl rfl rfl f2
  refine ⟨fun s p later h he => ?_, fun later he => ?_, hlegal, fun limit first rest hl hs => ?_⟩
  · obtain ⟨b, h1, h2⟩ := segment_raw (m := mark m) h hc hb later
    exact ⟨(mark m).withBody b, (C38_poll_iff _ e _ _ _).mpr
      ⟨h1, (legal_same e (mark m) _ _ rfl rfl rfl rfl rfl).mpr ((hlegal _).mpr he)⟩, f1, h2⟩
  · refine (C38_poll_iff _ e _ _ _).mpr ⟨?_, he⟩
    have hfit : 8 + m.body.length < 2 ^ 32 := by omega
    have := (C30_round_trip Ser.bytes Dec.bytes m m.body (payload_bytes _) (Dec.bytes_apply _) hfit _ _
      ((good_message (payload_bytes _) hfit).grow []) later).2 hc
    rwa [List.nil_append] at this
  · obtain ⟨-, whole, h1, h2⟩ := C50_end_to_end (mark m) limit hl hc hb first rest hs
    refine ⟨whole, h1, ?_, ?_⟩
    · rw [h2]
      exact f1
    · rw [h2]
      have hf : m.header.messageType.isTp = false := by simpa [Marked] using hm
      show { m with header := { m.header with
        messageType := (m.header.messageType.withFlags 0x20 true).withFlags 0x20 false } } = m
      rw [f5 hf]

/-- A request with forty bytes of body; a stub accepts it. -/
def Spec.longRequest : Message Bytes := sampleRequest.withBody sampleBody

theorem TpFlag.long_legal : LegalAt sampleStub longRequest .incoming :=
  ⟨by decide, sampleInterface.intoStub, by decide, by decide, .method, by decide, by decide⟩

theorem TpFlag.long_unmarked : ¬ Marked longRequest := by
  unfold Marked
  decide +kernel

/-- The packet of the second segment. -/
example : SegmentPacket longRequest ⟨1, true, List.replicate 16 2⟩
    (messageBytes longRequest ([0, 0, 0, 0x11] ++ List.replicate 16 2)) ∧
    CodeOk longRequest.returnCode ∧ ¬ Marked longRequest ∧ LegalAt sampleStub longRequest .incoming :=
  ⟨⟨20, sampleSegments, by decide, sample_splits, by decide, by decide +kernel⟩, by decide +kernel,
    long_unmarked, long_legal⟩

/-- The stub accepts it as a whole message. -/
example : (sampleStub.poll Dec.bytes (messageBytes longRequest ([0, 0, 0, 0x11] ++ List.replicate 16 2))) =
    (.done (.ok (longRequest.withBody ([0, 0, 0, 0x11] ++ List.replicate 16 2))), []) :=
  (C38_poll_iff _ _ _ _ _).mpr ⟨by decide +kernel, long_legal⟩

example : SegmentPacket (mark longRequest) ⟨1, true, List.replicate 16 2⟩
    (messageBytes (mark longRequest) ([0, 0, 0, 0x11] ++ List.replicate 16 2)) :=
  ⟨20, sampleSegments, by decide, sample_splits, by decide, by decide +kernel⟩

end Rsomeip
