import Verif.Bytes.Codec
import Verif.Bytes.Utf

/-!
# Strings

Transcription of `SerializeString` (`/repo/rsomeip-bytes/src/ser.rs:257-448`) and of
`impl Deserialize for String` (`/repo/rsomeip-bytes/src/de.rs:177-229`).
-/

namespace Rsomeip

/-- Byte order: of an encoding (`Endianness`, `/repo/rsomeip-bytes/src/ser.rs:445-448`) or of the
host, which matters for `u16::from_be` at `/repo/rsomeip-bytes/src/de.rs:210`. -/
inductive Endian where
  | little | big
  deriving DecidableEq, Repr

namespace Ser

/-- The tuple serialized by `serialize_utf8` (`/repo/rsomeip-bytes/src/ser.rs:365-369`). -/
def utf8Tuple : Ser (Arr UInt8 3 × Bytes × UInt8 × Unit) :=
  tcons (array u8 3) (tcons (vec u8) (tcons u8 tnil))

/-- `serialize_utf8(buffer, None)` (`/repo/rsomeip-bytes/src/ser.rs:360-374`). -/
def utf8 : Ser (List Char) where
  serialize s := utf8Tuple.serialize (⟨[0xef, 0xbb, 0xbf], rfl⟩, utf8Encode s, 0x00, ())
  sizeHint s := utf8Tuple.sizeHint (⟨[0xef, 0xbb, 0xbf], rfl⟩, utf8Encode s, 0x00, ())

/-- `value.to_le_bytes()` or `value.to_be_bytes()` (`/repo/rsomeip-bytes/src/ser.rs:421,427`). -/
def unitBytes (e : Endian) (u : UInt16) : Arr UInt8 2 :=
  match e with
  | .little => ⟨[UInt8.ofNat u.toNat, UInt8.ofNat (u.toNat / 256)], rfl⟩
  | .big => ⟨[UInt8.ofNat (u.toNat / 256), UInt8.ofNat u.toNat], rfl⟩

/-- The `for value in encode_utf16()` loops (`/repo/rsomeip-bytes/src/ser.rs:420-422,426-428`). -/
def utf16Loop (e : Endian) : Nat → List UInt16 → W Nat
  | size, [] => pure size
  | size, u :: us => do
    let n ← (array u8 2).serialize (unitBytes e u)
    utf16Loop e (size + n) us

/-- The byte order marks (`/repo/rsomeip-bytes/src/ser.rs:419,425`), written as big-endian `u16`. -/
def mark : Endian → UInt16
  | .little => 0xfffe
  | .big => 0xfeff

/-- `impl Serialize for Utf16String` (`/repo/rsomeip-bytes/src/ser.rs:414-442`), i.e.
`serialize_utf16_be(buffer, None)` (`:376-389`) and `serialize_utf16_le(buffer, None)`
(`:391-404`). -/
def utf16 (e : Endian) : Ser (List Char) where
  serialize s := do
    let n ← u16.serialize (mark e)
    let m ← utf16Loop e n (utf16Encode s)
    let k ← u16.serialize 0x0000
    pure (m + k)
  sizeHint s := (utf16Encode s).foldl (fun size _ => size + 2) (2 * 2)

/-- The optional length field of the three `SerializeString` methods
(`/repo/rsomeip-bytes/src/ser.rs:370-373,385-388,400-403`). -/
def withLen {α : Type} (s : Ser α) (l : Option LengthField) (v : α) : W Nat :=
  match l with
  | some l => s.serializeLen l v
  | none => s.serialize v

end Ser

namespace Dec

/-- `loop { let value = ..?; if value == 0 { break }; raw_string.push(value) }`
(`/repo/rsomeip-bytes/src/de.rs:190-196` and `:206-216`). As in `Dec.vec`, an iteration that
consumes nothing would repeat forever (`diverge`); this does not happen for the two readers the
code uses. -/
def untilZero {α : Type} [DecidableEq α] (zero : α) (rd : Dec α) (acc : List α) : Dec (List α) :=
  fun b =>
  match rd b with
  | (.ok v, r) =>
    if v = zero then (.ok acc, r)
    else if r.length < b.length then untilZero zero rd (acc ++ [v]) r
    else (.diverge, r)
  | (.err e, r) => (.err e, r)
  | (.panic, r) => (.panic, r)
  | (.diverge, r) => (.diverge, r)
termination_by b => b.length

/-- `deserialize_utf8` (`/repo/rsomeip-bytes/src/de.rs:182-199`). -/
def utf8 : Dec (List Char) := do
  let bom ← Dec.u8
  if bom ≠ 0xbf then
    Dec.fail (.other (.utf8Mark bom))
  else
    let raw ← untilZero 0x00 Dec.u8 []
    match utf8Decode raw with
    | some s => pure s
    | none => Dec.fail (.other .invalidUtf8)

/-- `u16::swap_bytes`, which `u16::from_be` (`/repo/rsomeip-bytes/src/de.rs:210`) does on
little-endian hosts. -/
def swapBytes (u : UInt16) : UInt16 := UInt16.ofNat (u.toNat % 256 * 256 + u.toNat / 256)

/-- `u16::from_be` (`/repo/rsomeip-bytes/src/de.rs:210`): depends on the host. -/
def fromBe (host : Endian) (u : UInt16) : UInt16 :=
  match host with
  | .little => swapBytes u
  | .big => u

/-- The code unit reader of `deserialize_utf16` (`/repo/rsomeip-bytes/src/de.rs:207-211`). -/
def utf16Unit (host : Endian) (isBe : Bool) : Dec UInt16 :=
  if isBe then Dec.u16 else do
    let v ← Dec.u16
    pure (fromBe host v)

/-- `deserialize_utf16` (`/repo/rsomeip-bytes/src/de.rs:201-219`). -/
def utf16 (host : Endian) (isBe : Bool) : Dec (List Char) := do
  let raw ← untilZero 0x0000 (utf16Unit host isBe) []
  match utf16Decode raw with
  | some s => pure s
  | none => Dec.fail (.other .invalidUtf16)

/-- `impl Deserialize for String` (`/repo/rsomeip-bytes/src/de.rs:177-229`). -/
def string (host : Endian) : Dec (List Char) := do
  let value ← Dec.u16
  if value = 0xefbb then utf8
  else if value = 0xfeff then utf16 host true
  else if value = 0xfffe then utf16 host false
  else Dec.fail (.other (.mark value))

end Dec

end Rsomeip
