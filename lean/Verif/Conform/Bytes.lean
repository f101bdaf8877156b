import Verif.Bytes.Universe

/-!
# The tests of `rsomeip-bytes`, run on the model

The unit tests of `/repo/rsomeip-bytes/src/{ser,de,macros}.rs`, one `example` for each. They are not
proofs of any property; they show that the model computes what the authors expect of the code.
-/

namespace Rsomeip.Conform

/-- What a test of serialization looks at: the result and the contents of the buffer, which was made
with the given capacity and grows (`BytesMut::with_capacity`, e.g.
`/repo/rsomeip-bytes/src/ser.rs:470`). -/
def written (w : W Nat) : SOut Nat × Bytes := let (o, b) := w ⟨[], none⟩; (o, b.data)

/-! `test_serialize_basic_type!` (`/repo/rsomeip-bytes/src/ser.rs:466-488`) -/

example : written (Ser.u8.serialize 0xff) = (.ok 1, [0xff]) ∧ Ser.u8.sizeHint 0xff = 1 := by decide
example : written (Ser.u16.serialize 0xffff) = (.ok 2, [0xff, 0xff]) ∧ Ser.u16.sizeHint 0xffff = 2 := by
  decide
example : written (Ser.u32.serialize 0xffffffff) = (.ok 4, [0xff, 0xff, 0xff, 0xff]) ∧
    Ser.u32.sizeHint 0xffffffff = 4 := by decide
example : written (Ser.u64.serialize 0xffffffffffffffff) =
    (.ok 8, [0xff, 0xff, 0xff, 0xff, 0xff, 0xff, 0xff, 0xff]) ∧
    Ser.u64.sizeHint 0xffffffffffffffff = 8 := by decide
example : written (Ser.i8.serialize 127) = (.ok 1, [0x7f]) ∧ Ser.i8.sizeHint 127 = 1 := by decide
example : written (Ser.i16.serialize 32767) = (.ok 2, [0x7f, 0xff]) ∧ Ser.i16.sizeHint 32767 = 2 := by
  decide
example : written (Ser.i32.serialize 2147483647) = (.ok 4, [0x7f, 0xff, 0xff, 0xff]) ∧
    Ser.i32.sizeHint 2147483647 = 4 := by decide
example : written (Ser.i64.serialize 9223372036854775807) =
    (.ok 8, [0x7f, 0xff, 0xff, 0xff, 0xff, 0xff, 0xff, 0xff]) ∧
    Ser.i64.sizeHint 9223372036854775807 = 8 := by decide
/-- `f32::MAX` has the bit pattern `0x7f7fffff`. -/
example : written (Ser.f32.serialize 0x7f7fffff) = (.ok 4, [0x7f, 0x7f, 0xff, 0xff]) ∧
    Ser.f32.sizeHint 0x7f7fffff = 4 := by decide
/-- `f64::MAX` has the bit pattern `0x7fefffffffffffff`. -/
example : written (Ser.f64.serialize 0x7fefffffffffffff) =
    (.ok 8, [0x7f, 0xef, 0xff, 0xff, 0xff, 0xff, 0xff, 0xff]) ∧
    Ser.f64.sizeHint 0x7fefffffffffffff = 8 := by decide

/-- `serialize_bool` -/
example : written (Ser.bool.serialize true) = (.ok 1, [1]) ∧ Ser.bool.sizeHint true = 1 := by decide

/-- `serialize_len` -/
example : written ((Ser.vec Ser.u8).serializeLen .u8 [0, 1]) = (.ok 3, [2, 0, 1]) := by decide

/-- `serialize_vec` -/
example : written ((Ser.vec Ser.u8).serialize [1, 2]) = (.ok 2, [1, 2]) ∧
    (Ser.vec Ser.u8).sizeHint [1, 2] = 2 := by decide

/-- `serialize_array` -/
example : written ((Ser.array Ser.u8 2).serialize ⟨[1, 2], rfl⟩) = (.ok 2, [1, 2]) ∧
    (Ser.array Ser.u8 2).sizeHint ⟨[1, 2], rfl⟩ = 2 := by decide

/-- `serialize_tuple` -/
example : written ((Ser.tcons Ser.u8 (Ser.tcons Ser.u8 Ser.tnil)).serialize (1, 2, ())) =
    (.ok 2, [1, 2]) ∧ (Ser.tcons Ser.u8 (Ser.tcons Ser.u8 Ser.tnil)).sizeHint (1, 2, ()) = 2 := by
  decide

/-- `serialize_bytes` -/
example : written (Ser.bytes.serialize [1, 2]) = (.ok 2, [1, 2]) ∧ Ser.bytes.sizeHint [1, 2] = 2 := by
  decide

/-- `serialize_utf8` -/
example : written (Ser.withLen Ser.utf8 none "Hello!".toList) =
    (.ok 10, [0xef, 0xbb, 0xbf, 0x48, 0x65, 0x6c, 0x6c, 0x6f, 0x21, 0x00]) := by decide +kernel

/-- `serialize_utf16_be` -/
example : written (Ser.withLen (Ser.utf16 .big) none "语言处理".toList) =
    (.ok 12, [0xfe, 0xff, 0x8b, 0xed, 0x8a, 0x00, 0x59, 0x04, 0x74, 0x06, 0x00, 0x00]) := by
  decide +kernel

/-- `serialize_utf16_le` -/
example : written (Ser.withLen (Ser.utf16 .little) none "语言处理".toList) =
    (.ok 12, [0xff, 0xfe, 0xed, 0x8b, 0x00, 0x8a, 0x04, 0x59, 0x06, 0x74, 0x00, 0x00]) := by
  decide +kernel

/-! `test_deserialize_basic_type!` (`/repo/rsomeip-bytes/src/de.rs:261-288`) -/

example : Dec.u8 [1] = (.ok 1, []) ∧ Dec.u8 [] = (.err (.insufficientData 1 0), []) := by decide
example : Dec.u16 [0, 1] = (.ok 1, []) ∧ Dec.u16 [] = (.err (.insufficientData 2 0), []) := by decide
example : Dec.u32 [0, 0, 0, 1] = (.ok 1, []) ∧ Dec.u32 [] = (.err (.insufficientData 4 0), []) := by
  decide
example : Dec.u64 [0, 0, 0, 0, 0, 0, 0, 1] = (.ok 1, []) ∧
    Dec.u64 [] = (.err (.insufficientData 8 0), []) := by decide
example : Dec.i8 [1] = (.ok 1, []) ∧ Dec.i8 [] = (.err (.insufficientData 1 0), []) := by decide
example : Dec.i16 [0, 1] = (.ok 1, []) ∧ Dec.i16 [] = (.err (.insufficientData 2 0), []) := by decide
example : Dec.i32 [0, 0, 0, 1] = (.ok 1, []) ∧ Dec.i32 [] = (.err (.insufficientData 4 0), []) := by
  decide
example : Dec.i64 [0, 0, 0, 0, 0, 0, 0, 1] = (.ok 1, []) ∧
    Dec.i64 [] = (.err (.insufficientData 8 0), []) := by decide
/-- `1 as f32` has the bit pattern `0x3f800000`. -/
example : Dec.f32 [0x3f, 0x80, 0, 0] = (.ok 0x3f800000, []) ∧
    Dec.f32 [] = (.err (.insufficientData 4 0), []) := by decide
/-- `1 as f64` has the bit pattern `0x3ff0000000000000`. -/
example : Dec.f64 [0x3f, 0xf0, 0, 0, 0, 0, 0, 0] = (.ok 0x3ff0000000000000, []) ∧
    Dec.f64 [] = (.err (.insufficientData 8 0), []) := by decide

/-- `deserialize_bool` -/
example : Dec.bool [0, 1] = (.ok false, [1]) ∧ Dec.bool [1] = (.ok true, []) ∧
    Dec.bool [] = (.err (.insufficientData 1 0), []) := by decide

/-- `deserialize_len` -/
example : Dec.len (Dec.vec Dec.u8) .u8 [2, 1, 2, 3] = (.ok [1, 2], [3]) := by decide +kernel

/-- `deserialize_array` -/
example : Dec.array Dec.u8 0 2 [1, 2] = (.ok ⟨[1, 2], rfl⟩, []) ∧
    Dec.array Dec.u8 0 2 [] = (.ok ⟨[0, 0], rfl⟩, []) := by decide

/-- `deserialize_vec` -/
example : Dec.vec Dec.u8 [1, 2] = (.ok [1, 2], []) := by decide +kernel

/-- `deserialize_malformed_vec` -/
example : (Dec.vec Dec.u16 [1, 2, 3]).1 = .err (.insufficientData 2 1) := by decide +kernel

/-- `deserialize_tuple` -/
example : Dec.tcons Dec.u8 (Dec.tcons Dec.u8 Dec.tnil) [1, 2] = (.ok (1, 2, ()), []) ∧
    (Dec.tcons Dec.u8 (Dec.tcons Dec.u8 Dec.tnil) []).1 = .err (.insufficientData 1 0) := by decide

/-- `deserialize_bytes` -/
example : Dec.len Dec.bytes .u8 [2, 1, 2, 3, 4] = (.ok [1, 2], [3, 4]) ∧
    Dec.bytes [3, 4] = (.ok [3, 4], []) := by decide

/-- `deserialize_utf8` -/
example : (Dec.string .little [0xef, 0xbb, 0xbf, 0x72, 0x75, 0x73, 0x74, 0x00]).1 =
    .ok "rust".toList := by decide +kernel

/-- `deserialize_utf16_be` -/
example : (Dec.string .little [0xfe, 0xff, 0x95, 0x08, 0x00, 0x00]).1 = .ok "锈".toList := by
  decide +kernel

/-- `deserialize_utf16_le` -/
example : (Dec.string .little [0xff, 0xfe, 0x08, 0x95, 0x00, 0x00]).1 = .ok "锈".toList := by
  decide +kernel

/-- `serialize_macro` (`/repo/rsomeip-bytes/src/macros.rs:128-137`) -/
example : written (do
      let n ← (Ser.tcons Ser.u8 (Ser.tcons Ser.u8 Ser.tnil)).serialize (1, 2, ())
      let m ← (Ser.tcons Ser.u8 (Ser.tcons Ser.u8 Ser.tnil)).serializeLen .u8 (3, 4, ())
      pure (n + m)) = (.ok 5, [1, 2, 2, 3, 4]) := by decide

/-- `size_hint_macro` (`/repo/rsomeip-bytes/src/macros.rs:139-146`) -/
example : (Ser.tcons Ser.u8 (Ser.tcons Ser.u8 Ser.tnil)).sizeHint (1, 2, ()) +
    (Ser.len (Ser.tcons Ser.u8 (Ser.tcons Ser.u8 Ser.tnil)) .u32).sizeHint (3, 4, ()) = 8 := by decide

/-- `deserialize_macro` (`/repo/rsomeip-bytes/src/macros.rs:148-155`) -/
example : (do
      let x ← Dec.tcons Dec.u8 (Dec.tcons Dec.u8 Dec.tnil)
      let y ← Dec.len (Dec.tcons Dec.u8 (Dec.tcons Dec.u8 Dec.tnil)) .u8
      pure (x, y) : Dec _) [1, 2, 2, 3, 4] = (.ok ((1, 2, ()), (3, 4, ())), []) := by decide

end Rsomeip.Conform
