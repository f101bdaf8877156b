import Verif.Lemmas.AnyMut
import Verif.Props.AnyBuf

/-! # C123: serialization depends on the room, not on how the buffer keeps it -/

namespace Rsomeip

open Spec Any

/-- **C123.** Every type: whatever buffer it is written to, if it keeps the contract of `bytes::BufMut` then
`serialize` returns or panics as it does for a buffer in one piece with the same room, and appends the same. -/
theorem C123_types {S : Type} [Sink S] (view : S → BufMut) (hc : SinkContract view) (t : Ty) (v : t.Val) :
    SameTo view (Any.ser t v) (t.ser.serialize v) := same_ser hc t v

/-- **C123.** `serialize_len` too. -/
theorem C123_len {S : Type} [Sink S] (view : S → BufMut) (hc : SinkContract view) (l : LengthField) (t : Ty)
    (v : t.Val) : SameTo view (Any.putLen (t.ser.sizeHint v) (Any.ser t v) l) (t.ser.serializeLen l v) :=
  same_ser hc (.len l t) v

/-- **C123.** The messages of both crates, their header and the segmentation header. -/
theorem C123_messages {S : Type} [Sink S] (view : S → BufMut) (hc : SinkContract view) (t : Ty)
    (h : Proto.Header) (p : Proto.TpHeader) (m : Proto.Message t.Val) (m' : Someip.Message t.Val)
    (m'' : Proto.Message Proto.TpHeader) :
    SameTo view (Any.putHeader h) (Proto.Header.ser.serialize h) ∧
      SameTo view (Any.putTp p) (Proto.TpHeader.ser.serialize p) ∧
      SameTo view (Any.putMessage t.ser.sizeHint (Any.ser t) m) ((Proto.Message.ser t.ser).serialize m) ∧
      SameTo view (Any.putMessage Proto.TpHeader.ser.sizeHint Any.putTp m'')
        ((Proto.Message.ser Proto.TpHeader.ser).serialize m'') ∧
      SameTo view (Any.putSomeip t.ser.sizeHint (Any.ser t) m') ((Someip.Message.ser t.ser).serialize m') :=
  ⟨.header hc h, .tp hc p, .message hc (same_ser hc t) m, .message hc (.tp hc) m'',
    .someip hc (same_ser hc t) m'⟩

/-- **C123.** `Endpoint::process` gives the same answer and writes the same for every kind of buffer. -/
theorem C123_process {S : Type} [Sink S] (view : S → BufMut) (hc : SinkContract view) (t : Ty)
    (e : Proto.Endpoint) (m : Proto.Message t.Val) (s : S) :
    ∃ o s', Any.process t.ser.sizeHint (Any.ser t) e m s = some (o, s') ∧
      (o, view s') = e.process t.ser m (view s) := by
  obtain ⟨o, s', h₁, h₂⟩ := Spec.SameTo.message hc (same_ser hc t) m s
  unfold Any.process Proto.Endpoint.process
  rw [h₁, ← h₂]
  split
  · exact ⟨_, _, rfl, rfl⟩
  · rcases e.interfaces.get m.service with _ | i
    · exact ⟨_, _, rfl, rfl⟩
    · dsimp only
      rcases i.check m .outgoing with (c | c) | _
      · exact ⟨_, _, rfl, rfl⟩
      · exact ⟨_, _, rfl, rfl⟩
      · cases o <;> exact ⟨_, _, rfl, rfl⟩

/-- **C123.** A value that has an encoding, and a buffer of any kind that has room for it: the encoding is
appended, and its length returned. -/
theorem C123_written {S : Type} [Sink S] (view : S → BufMut) (hc : SinkContract view) (t : Ty) (v : t.Val)
    (hf : Fits t v) (s : S) (hr : ∀ r, (view s).room = some r → (wire t v).length ≤ r) :
    ∃ s', Any.ser t v s = some (.ok (wire t v).length, s') ∧ (view s').data = (view s).data ++ wire t v := by
  obtain ⟨o, s', h₁, h₂⟩ := C123_types view hc t v s
  have hw := good_fits t v hf
  rcases hv : view s with ⟨d, _ | r⟩
  · rw [hv, hw.grow d] at h₂
    cases (Prod.mk.inj h₂).1
    exact ⟨s', h₁, by rw [(Prod.mk.inj h₂).2]⟩
  · rw [hv, hw.room d r (hr r (by rw [hv]))] at h₂
    cases (Prod.mk.inj h₂).1
    exact ⟨s', h₁, by rw [(Prod.mk.inj h₂).2]⟩

/-- **C122, C123.** A value written to a buffer of any kind that has room for it, and the bytes written read from
a buffer of any other kind, whatever follows them: the same value, and what follows is left. -/
theorem C123_transfer {S B : Type} [Sink S] [Buf B] (view : S → BufMut) (hc : SinkContract view)
    (view' : B → Bytes) (hc' : Contract view') (host : Endian) (t : Ty) (v : t.Val)
    (ht : Delimited t = true) (hh : HostOk host t = true) (hn : NoNul t v) (hf : Fits t v) (s : S)
    (he : (view s).data = []) (hr : ∀ r, (view s).room = some r → (wire t v).length ≤ r) :
    ∃ n s', Any.ser t v s = some (.ok n, s') ∧
      ∀ b rest, view' b = (view s').data ++ rest →
        (Any.de host t B b).1 = .ok v ∧ view' (Any.de host t B b).2 = rest := by
  obtain ⟨s', h₁, h₂⟩ := C123_written view hc t v hf s hr
  rw [he, List.nil_append] at h₂
  refine ⟨_, s', h₁, fun b rest hb => ?_⟩
  refine C122_round_trip host t v (wire t v).length ⟨wire t v, none⟩ rest ht hh hn ?_ view' hc' b (by rw [hb, h₂])
  exact (good_fits t v hf).grow []

/-- Many pieces of memory, and memory that grows, keep the contract. -/
example : SinkContract (S := Slots) (fun s => ⟨s.data, some s.free.sum⟩) ∧
    SinkContract (S := Growing) (fun s => ⟨s.data, none⟩) :=
  ⟨contract_slots, contract_growing⟩

/-- A number cut in two, and one too many: the panic comes after the first. -/
example : (∃ s', Any.ser (.pair .u32 .u8) ((0x01020304 : UInt32), (5 : UInt8)) (⟨[], [1, 0, 2, 3]⟩ : Slots) =
      some (.ok 5, s') ∧ s'.data = [1, 2, 3, 4, 5] ∧ s'.free.sum = 1) ∧
    ∃ s', Any.ser (.pair .u32 .u32) ((0x01020304 : UInt32), (5 : UInt32)) (⟨[], [1, 0, 2, 3]⟩ : Slots) =
      some (.panic, s') ∧ s'.data = [1, 2, 3, 4] ∧ s'.free.sum = 2 := by
  constructor
  · obtain ⟨o, s', h₁, h₂⟩ := C123_types _ contract_slots (.pair .u32 .u8)
      ((0x01020304 : UInt32), (5 : UInt8)) ⟨[], [1, 0, 2, 3]⟩
    have h₃ := h₂.trans (show _ = (SOut.ok 5, (⟨[1, 2, 3, 4, 5], some 1⟩ : BufMut)) from rfl)
    simp only [Prod.mk.injEq, BufMut.mk.injEq, Option.some.injEq] at h₃
    exact ⟨s', by rw [h₁, h₃.1], h₃.2.1, h₃.2.2⟩
  · obtain ⟨o, s', h₁, h₂⟩ := C123_types _ contract_slots (.pair .u32 .u32)
      ((0x01020304 : UInt32), (5 : UInt32)) ⟨[], [1, 0, 2, 3]⟩
    have h₃ := h₂.trans (show _ = (SOut.panic, (⟨[1, 2, 3, 4], some 2⟩ : BufMut)) from rfl)
    simp only [Prod.mk.injEq, BufMut.mk.injEq, Option.some.injEq] at h₃
    exact ⟨s', by rw [h₁, h₃.1], h₃.2.1, h₃.2.2⟩

/-- A value meets what `C123_transfer` asks. -/
example : let t : Ty := .pair .u8 (.len .u16 (.vec .u32))
    let v : t.Val := ((1 : UInt8), ([2, 3] : List UInt32))
    Delimited t = true ∧ HostOk .little t = true ∧ NoNul t v ∧ Fits t v ∧ (wire t v).length = 11 := by
  refine ⟨by decide, by decide, ⟨trivial, fun _ _ => trivial⟩, ⟨trivial, ?_, fun _ _ => trivial⟩, rfl⟩
  decide

end Rsomeip
