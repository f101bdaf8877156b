import Verif.Lemmas.RoundTrip
import Verif.Spec.Shape

/-! # C07–C08: round trips and injectivity -/

namespace Rsomeip

open Spec

/-- What a successful `serialize` appends is the encoding of the value. -/
theorem serialize_ok_wire {t : Ty} {v : t.Val} {d : Bytes} {n : Nat} {buf : BufMut}
    (h : t.ser.serialize v ⟨d, none⟩ = (.ok n, buf)) : Fits t v ∧ buf.data = d ++ wire t v := by
  by_cases hf : Fits t v
  · rw [(good_fits t v hf).grow d] at h
    cases h
    exact ⟨hf, rfl⟩
  · obtain ⟨bs, req, max, _, _, hw⟩ := unfit t v hf
    rw [hw.grow d] at h
    cases h

/-- **C07.** Self-delimiting types: what `serialize` wrote is read back, whatever follows it, and
what follows is left. -/
theorem C07_round_trip_delimited (host : Endian) (t : Ty) (v : t.Val) (n : Nat) (buf : BufMut)
    (rest : Bytes) (ht : Delimited t = true) (hh : HostOk host t = true) (hn : NoNul t v)
    (h : t.ser.serialize v ⟨[], none⟩ = (.ok n, buf)) :
    t.de host (buf.data ++ rest) = (.ok v, rest) := by
  obtain ⟨hf, hb⟩ := serialize_ok_wire h
  rw [hb, List.nil_append]
  exact reads_delimited host t v ht hh hn hf rest

/-- **C07.** Well-formed types: what `serialize` wrote is read back completely. -/
theorem C07_round_trip (host : Endian) (t : Ty) (v : t.Val) (n : Nat) (buf : BufMut)
    (ht : WellFormed t = true) (hh : HostOk host t = true) (hn : NoNul t v)
    (h : t.ser.serialize v ⟨[], none⟩ = (.ok n, buf)) :
    t.de host buf.data = (.ok v, []) := by
  obtain ⟨hf, hb⟩ := serialize_ok_wire h
  rw [hb, List.nil_append]
  exact reads_wellFormed host t v ht hh hn hf

/-- **C07.** The same with the length-prefixed entry points `serialize_len`/`deserialize_len`. -/
theorem C07_round_trip_len (host : Endian) (l : LengthField) (t : Ty) (v : t.Val) (n : Nat)
    (buf : BufMut) (rest : Bytes) (ht : WellFormed t = true) (hh : HostOk host t = true)
    (hn : NoNul t v) (h : t.ser.serializeLen l v ⟨[], none⟩ = (.ok n, buf)) :
    (t.de host).len l (buf.data ++ rest) = (.ok v, rest) :=
  C07_round_trip_delimited host (.len l t) v n buf rest ht hh hn h

example : let t : Ty := .pair .u8 (.pair (.len .u16 (.vec (.pair .utf8 .i32))) (.pair (.utf16 .big) .bytes))
    let v : t.Val := ((1 : UInt8), ([(['a', 'é'], (-1 : Int32))] : List (List Char × Int32)),
      (['😀'] : List Char), ([1, 2] : Bytes))
    WellFormed t = true ∧ HostOk .big t = true ∧ NoNul t v ∧
      ∃ n buf, t.ser.serialize v ⟨[], none⟩ = (.ok n, buf) := by
  refine ⟨by decide, by decide, ?_, _, _, rfl⟩
  exact ⟨trivial, (by
    intro v hv
    rcases List.mem_singleton.mp hv with rfl
    exact ⟨by show '\x00' ∉ ['a', 'é']; decide, trivial⟩), by
    show '\x00' ∉ ['😀']; decide, trivial⟩

/-- **C08.** Encodings of a self-delimiting type are prefix-free: if the bytes of one value begin
the bytes of another, the values are equal. -/
theorem C08_prefix_free (t : Ty) (v w : t.Val) (n m : Nat) (bv bw : BufMut)
    (ht : Delimited t = true) (hv : NoNul t v) (hw : NoNul t w)
    (sv : t.ser.serialize v ⟨[], none⟩ = (.ok n, bv))
    (sw : t.ser.serialize w ⟨[], none⟩ = (.ok m, bw)) (hp : bv.data <+: bw.data) : v = w := by
  have hh : HostOk .little t = true := hostOk_little t
  obtain ⟨rest, hr⟩ := hp
  have h1 := C07_round_trip_delimited .little t v n bv rest ht hh hv sv
  have h2 := C07_round_trip_delimited .little t w m bw [] ht hh hw sw
  rw [List.append_nil, ← hr, h1] at h2
  cases h2
  rfl

/-- **C08.** Encodings of a well-formed type are injective. -/
theorem C08_injective (t : Ty) (v w : t.Val) (n m : Nat) (bv bw : BufMut)
    (ht : WellFormed t = true) (hv : NoNul t v) (hw : NoNul t w)
    (sv : t.ser.serialize v ⟨[], none⟩ = (.ok n, bv))
    (sw : t.ser.serialize w ⟨[], none⟩ = (.ok m, bw)) (hp : bv.data = bw.data) : v = w := by
  have hh : HostOk .little t = true := hostOk_little t
  have h1 := C07_round_trip .little t v n bv ht hh hv sv
  have h2 := C07_round_trip .little t w m bw ht hh hw sw
  rw [← hp, h1] at h2
  cases h2
  rfl

example : Delimited (.pair .utf8 (.len .u8 (.vec .u16))) = true := by decide

end Rsomeip
