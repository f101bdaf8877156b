import Verif.Lemmas.AnyBuf
import Verif.Props.RoundTrip

/-! # C122: deserialization depends on the bytes, not on how the buffer keeps them -/

namespace Rsomeip

open Spec Any

/-- **C122.** Every type: whatever buffer the bytes are read from, if it keeps the contract of `bytes::Buf` then
the outcome is that of reading from the bytes, and so are the bytes left. -/
theorem C122_types (host : Endian) (t : Ty) : SameOn (Any.de host t) (t.de host) := (sim_de host t).same

/-- **C122.** `deserialize_len` too. -/
theorem C122_len (host : Endian) (l : LengthField) (t : Ty) :
    SameOn (fun _ => Any.len (Any.de host t) l) ((t.de host).len l) := (sim_de host (.len l t)).same

/-- **C122.** The messages of both crates, their header and the segmentation header. -/
theorem C122_messages (host : Endian) (t : Ty) :
    SameOn Any.header Proto.Header.de ∧ SameOn Any.tpHeader Proto.TpHeader.de ∧
      SameOn (Any.generic Any.header (Any.de host t)) (Proto.Message.de (t.de host)) ∧
      SameOn (Any.generic Any.header Any.tpHeader) (Proto.Message.de Proto.TpHeader.de) ∧
      SameOn (Any.message (Any.de host t)) (Someip.Message.de (t.de host)) :=
  ⟨sim_header.same, sim_tpHeader.same, (sim_generic sim_header (sim_de host t)).same,
    (sim_generic sim_header sim_tpHeader).same, (sim_message (sim_de host t)).same⟩

/-- **C122.** `Endpoint::poll` gives the same answer for every kind of buffer. -/
theorem C122_poll (host : Endian) (t : Ty) (e : Proto.Endpoint) {B : Type} [Buf B] (view : B → Bytes)
    (hc : Contract view) (b : B) :
    (Any.poll (Any.de host t) e b).1 = (Proto.Endpoint.poll (t.de host) e (view b)).1 ∧
      view (Any.poll (Any.de host t) e b).2 = (Proto.Endpoint.poll (t.de host) e (view b)).2 := by
  obtain ⟨h₁, h₂⟩ := (sim_generic sim_header (sim_de host t)).same B view hc b
  unfold Any.poll Proto.Endpoint.poll Proto.Message.de
  rcases hg : Any.generic Any.header (Any.de host t) B b with ⟨o, r⟩
  rcases hd : Proto.GenericMessage.de Proto.Header.de (t.de host) (view b) with ⟨o', r'⟩
  rw [hg, hd] at h₁ h₂
  dsimp only at h₁ h₂
  subst h₁
  cases o <;> exact ⟨rfl, h₂⟩

/-- **C122.** `into_segment` and `wrap_segment` give the same for every kind of buffer in the message; the latter
never fails. -/
theorem C122_segment {B : Type} [Buf B] (view : B → Bytes) (hc : Contract view) (m : Proto.Message B) :
    Any.intoSegment m = Proto.Message.intoSegment (m.mapBody view) ∧
      Any.wrapSegment m = .ok (Proto.Message.wrapSegment (m.mapBody view)) := by
  constructor
  · have h₁ := (sim_tpHeader.same B view hc m.body).1
    unfold Any.intoSegment Proto.Message.intoSegment
    rcases hg : Any.tpHeader B m.body with ⟨o, r⟩
    rcases hd : Proto.TpHeader.de (m.mapBody view).body with ⟨o', r'⟩
    rw [show (m.mapBody view).body = view m.body from rfl] at hd
    rw [hg, hd] at h₁
    dsimp only at h₁
    subst h₁
    cases o <;> rfl
  · have h₁ := (sim_de .big .bytes).same B view hc m.body
    have hb : (Any.bytes m.body).1 = .ok (view m.body) := by
      refine h₁.1.trans ?_
      show (Dec.bytes (view m.body)).1 = _
      show (Dec.bind Dec.remaining Dec.copyToBytes (view m.body)).1 = _
      simp [Dec.bind, Dec.remaining, Dec.copyToBytes]
    unfold Any.wrapSegment
    rcases hg : Any.bytes m.body with ⟨o, r⟩
    rw [hg] at hb
    dsimp only at hb
    subst hb
    rfl

/-- **C122.** Two buffers of any two kinds that have the same bytes: the same outcome, and the same bytes left. -/
theorem C122_either (host : Endian) (t : Ty) {B C : Type} [Buf B] [Buf C] (view : B → Bytes)
    (view' : C → Bytes) (hc : Contract view) (hc' : Contract view') (b : B) (c : C) (h : view b = view' c) :
    (Any.de host t B b).1 = (Any.de host t C c).1 ∧
      view (Any.de host t B b).2 = view' (Any.de host t C c).2 := by
  obtain ⟨h₁, h₂⟩ := C122_types host t B view hc b
  obtain ⟨k₁, k₂⟩ := C122_types host t C view' hc' c
  rw [h₁, h₂, k₁, k₂, h]
  exact ⟨rfl, rfl⟩

/-- **C122.** However the bytes are cut into pieces, also empty ones, and wherever the cuts are: the outcome is
that of reading from the bytes in one piece, and so are the bytes left. -/
theorem C122_pieces (host : Endian) (t : Ty) (ps : List Bytes) :
    (Any.de host t Pieces ⟨ps⟩).1 = (t.de host ps.flatten).1 ∧
      (Any.de host t Pieces ⟨ps⟩).2.list.flatten = (t.de host ps.flatten).2 :=
  C122_types host t Pieces _ contract_pieces ⟨ps⟩

/-- **C122.** What `serialize` wrote is read back from every buffer that begins with it, and what follows is
left. -/
theorem C122_round_trip (host : Endian) (t : Ty) (v : t.Val) (n : Nat) (buf : BufMut) (rest : Bytes)
    (ht : Delimited t = true) (hh : HostOk host t = true) (hn : NoNul t v)
    (h : t.ser.serialize v ⟨[], none⟩ = (.ok n, buf)) {B : Type} [Buf B] (view : B → Bytes)
    (hc : Contract view) (b : B) (hb : view b = buf.data ++ rest) :
    (Any.de host t B b).1 = .ok v ∧ view (Any.de host t B b).2 = rest := by
  obtain ⟨h₁, h₂⟩ := C122_types host t B view hc b
  rw [h₁, h₂, hb, C07_round_trip_delimited host t v n buf rest ht hh hn h]
  exact ⟨rfl, rfl⟩

/-- One piece of memory, many pieces, and what `take` makes of them, keep the contract. -/
example : Contract (B := Bytes) (fun b => b) ∧ Contract (B := Pieces) (fun b => b.list.flatten) ∧
    Contract (B := Take Pieces) (fun t => t.inner.list.flatten.take t.limit) :=
  ⟨contract_bytes, contract_pieces, (Lawful.of contract_pieces).take.contract⟩

/-- A number cut in two, then one within a length-prefixed member, then two bytes that are not read. -/
example : (Any.de .little (.pair .u32 (.len .u8 .u16)) Pieces ⟨[[1], [], [2, 3, 4, 2, 9], [8, 7], [6]]⟩).1 =
      .ok ((0x01020304 : UInt32), (0x0908 : UInt16)) ∧
    (Any.de .little (.pair .u32 (.len .u8 .u16)) Pieces
      ⟨[[1], [], [2, 3, 4, 2, 9], [8, 7], [6]]⟩).2.list.flatten = [7, 6] := by
  rw [(C122_pieces ..).1, (C122_pieces ..).2]
  exact ⟨rfl, rfl⟩

/-- The same answer when there is not enough: the number of bytes in all the pieces is told. -/
example : (Any.de .little (.pair .u8 .u32) Pieces ⟨[[1], [], [2, 3], [4]]⟩).1 = .err (.insufficientData 4 3) := by
  rw [(C122_pieces ..).1]
  rfl

end Rsomeip
