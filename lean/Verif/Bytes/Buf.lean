/-!
# Byte buffers

Model of the `bytes` crate's `Buf`/`BufMut` as used by `rsomeip-bytes`
(re-exported in `/repo/rsomeip-bytes/src/lib.rs:4`), and of the crate's two error types.
-/

namespace Rsomeip

/-- Contents of a byte buffer. `bytes::Bytes`, `bytes::BytesMut` and `&[u8]`
(`/repo/rsomeip-bytes/src/lib.rs:4`). Simplification: sharing is not modelled; for buffers of many pieces see
`Verif.Bytes.AnyBuf` and C122. -/
abbrev Bytes := List UInt8

/-- Reason inside `DeserializeError::Other` (`/repo/rsomeip-bytes/src/de.rs:251-253`).
Simplification: the formatted text is replaced by its variable part; the constructors are the
call sites at `de.rs:72` (unreachable on 64-bit hosts, not represented), `:185`, `:198`,
`:218` and `:224`. -/
inductive DeOther where
  /-- `de.rs:185-187` third byte of the UTF-8 mark is wrong -/
  | utf8Mark (bom : UInt8)
  /-- `de.rs:198` invalid UTF-8 -/
  | invalidUtf8
  /-- `de.rs:218` invalid UTF-16 -/
  | invalidUtf16
  /-- `de.rs:224-226` unknown byte order mark -/
  | mark (value : UInt16)
  deriving DecidableEq, Repr

/-- `DeserializeError` (`/repo/rsomeip-bytes/src/de.rs:242-254`). -/
inductive DeErr where
  | insufficientData (expected available : Nat)
  | other (why : DeOther)
  deriving DecidableEq, Repr

/-- Outcome of running a deserializer: `Result<T, DeserializeError>`
(`/repo/rsomeip-bytes/src/de.rs:18-78`) extended with a panic (`Buf::get_*` without data) and
with non-termination (`while` loop at `de.rs:144`). -/
inductive Out (α : Type) where
  | ok (a : α)
  | err (e : DeErr)
  | panic
  | diverge
  deriving DecidableEq, Repr

/-- A deserializer `fn deserialize(buffer: &mut impl Buf) -> Result<T, DeserializeError>`
(`/repo/rsomeip-bytes/src/de.rs:18-40`): from the bytes left in the buffer to the outcome and
the bytes left afterwards. The bytes left are tracked on failures too. -/
def Dec (α : Type) := Bytes → Out α × Bytes

namespace Dec

/-- Sequencing with `?` (used throughout `/repo/rsomeip-bytes/src/de.rs`): stop at the first
outcome that is not `Ok`. -/
@[inline] protected def bind {α β : Type} (d : Dec α) (f : α → Dec β) : Dec β := fun b =>
  match d b with
  | (.ok a, r) => f a r
  | (.err e, r) => (.err e, r)
  | (.panic, r) => (.panic, r)
  | (.diverge, r) => (.diverge, r)

/-- `Ok(a)` without touching the buffer (`/repo/rsomeip-bytes/src/de.rs`, every function). -/
@[inline] protected def pure {α : Type} (a : α) : Dec α := fun b => (.ok a, b)

/-- `?` between the reads of a `deserialize` (`/repo/rsomeip-bytes/src/de.rs:69-76`): the first error ends
it, and what was read stays read. -/
instance : Monad Dec where
  pure := Dec.pure
  bind := Dec.bind

/-- `return Err(e)` (`/repo/rsomeip-bytes/src/de.rs:87,185,224`). -/
def fail {α : Type} (e : DeErr) : Dec α := fun b => (.err e, b)

/-- `buffer.remaining()` (`/repo/rsomeip-bytes/src/de.rs:86`). -/
def remaining : Dec Nat := fun b => (.ok b.length, b)

end Dec

/-- Value of a big-endian byte string (`Buf::get_u16` and friends, called at
`/repo/rsomeip-bytes/src/de.rs:98-107`). -/
def beToNat (bs : Bytes) : Nat := bs.foldl (fun acc b => acc * 256 + b.toNat) 0

/-- The `k` big-endian bytes of a number (`BufMut::put_u16` and friends, called at
`/repo/rsomeip-bytes/src/ser.rs:125-134`). -/
def natToBE : Nat → Nat → Bytes
  | 0, _ => []
  | k + 1, n => UInt8.ofNat (n / 256 ^ k) :: natToBE k n

/-- `Buf::get_u8`, `get_u16`, ... with `k = size_of` (`/repo/rsomeip-bytes/src/de.rs:92,119`):
reads `k` bytes, panics if there are not enough. -/
def Dec.getBE (k : Nat) : Dec Nat := fun b =>
  if b.length < k then (.panic, b) else (.ok (beToNat (b.take k)), b.drop k)

/-- `Buf::copy_to_bytes(n)` (`/repo/rsomeip-bytes/src/de.rs:235`): panics if `n` exceeds the
bytes left. -/
def Dec.copyToBytes (n : Nat) : Dec Bytes := fun b =>
  if b.length < n then (.panic, b) else (.ok (b.take n), b.drop n)

/-- `let mut payload = buffer.take(n); T::deserialize(&mut payload)`
(`/repo/rsomeip-bytes/src/de.rs:75-76`): the inner deserializer sees at most `n` bytes, and
the outer buffer advances by what the inner one consumed. -/
def Dec.take {α : Type} (n : Nat) (d : Dec α) : Dec α := fun b =>
  let (o, r) := d (b.take n)
  (o, r ++ b.drop n)

/-- Reason inside `SerializeError::Other` (`/repo/rsomeip-bytes/src/ser.rs:459`). The only
producer in the workspace is `TpHeader::serialize` (`/repo/rsomeip-proto/src/tp.rs:181-187`). -/
inductive SerOther where
  | tpOffset (offset : Nat)
  deriving DecidableEq, Repr

/-- `SerializeError` (`/repo/rsomeip-bytes/src/ser.rs:453-460`). -/
inductive SerErr where
  | invalidLength (required maximum : Nat)
  | other (why : SerOther)
  deriving DecidableEq, Repr

/-- Outcome of a serializer: `Result<T, SerializeError>` (`/repo/rsomeip-bytes/src/ser.rs:18-47`)
extended with the panic of `BufMut::put_*` on a full buffer. -/
inductive SOut (α : Type) where
  | ok (a : α)
  | err (e : SerErr)
  | panic
  deriving DecidableEq, Repr

/-- A writable buffer (`bytes::BufMut`, `/repo/rsomeip-bytes/src/lib.rs:4`): the bytes written
so far and the free room, `none` for growable buffers such as `BytesMut`. -/
structure BufMut where
  data : Bytes
  room : Option Nat
  deriving DecidableEq, Repr

/-- A serializer `fn serialize(&self, buffer: &mut impl BufMut)`
(`/repo/rsomeip-bytes/src/ser.rs:18-47`). -/
def W (α : Type) := BufMut → SOut α × BufMut

namespace W

/-- Sequencing with `?` (used throughout `/repo/rsomeip-bytes/src/ser.rs`). -/
@[inline] protected def bind {α β : Type} (w : W α) (f : α → W β) : W β := fun b =>
  match w b with
  | (.ok a, b') => f a b'
  | (.err e, b') => (.err e, b')
  | (.panic, b') => (.panic, b')

/-- `Ok(a)` (`/repo/rsomeip-bytes/src/ser.rs`, every function). -/
@[inline] protected def pure {α : Type} (a : α) : W α := fun b => (.ok a, b)

/-- `?` between the writes of a `serialize` (`/repo/rsomeip-bytes/src/ser.rs:66-87`): the first error ends
it, and what was written stays written. -/
instance : Monad W where
  pure := W.pure
  bind := W.bind

/-- `return Err(e)` (`/repo/rsomeip-bytes/src/ser.rs:68-71`). -/
def fail {α : Type} (e : SerErr) : W α := fun b => (.err e, b)

/-- `BufMut::put_slice` (`/repo/rsomeip-bytes/src/ser.rs:248`; also what `put_u16` etc. at
`ser.rs:114` amount to): panics, writing nothing, if the buffer lacks room. -/
def putSlice (xs : Bytes) : W Unit := fun b =>
  match b.room with
  | none => (.ok (), ⟨b.data ++ xs, none⟩)
  | some r =>
    if r < xs.length then (.panic, b) else (.ok (), ⟨b.data ++ xs, some (r - xs.length)⟩)

end W

/-- `LengthField` (`/repo/rsomeip-bytes/src/lib.rs:19-23`). -/
inductive LengthField where
  | u8 | u16 | u32
  deriving DecidableEq, Repr

/-- Width in bytes of a length field: `size_of` of the integer types selected at
`/repo/rsomeip-bytes/src/ser.rs:66-85` and `de.rs:68-74`. -/
def LengthField.width : LengthField → Nat
  | .u8 => 1
  | .u16 => 2
  | .u32 => 4

end Rsomeip
