import Verif.Bytes.Universe
import Verif.Proto.Endpoint
import Verif.Proto.Tp
import Verif.Someip.Message

/-!
# Serialization into any buffer

`Serialize::serialize` takes `&mut impl BufMut` (`/repo/rsomeip-bytes/src/ser.rs:37`): any type that
implements the trait, one piece of memory, many, or one that grows. `Verif.Bytes.Buf` knows a buffer by the
bytes in it and the room left; here the same functions are written once more for a buffer of which only
the operations are known. The sizes told by `size_hint` do not depend on a buffer and are taken from there.
-/

namespace Rsomeip.Any

/-- The required methods of `bytes::BufMut` (re-exported in `/repo/rsomeip-bytes/src/lib.rs:4`; the trait bound is
at `/repo/rsomeip-bytes/src/ser.rs:37`). `room` is `remaining_mut`, `none` if the buffer grows (simplified: the
limit of `usize::MAX` bytes is out of reach). `chunk` is the size of the free piece of memory that comes
next, which may be smaller than the room, and the buffer afterwards, which may have grown. `write` copies into
that piece, then `advance_mut`. -/
class Sink (S : Type) where
  room : S → Option Nat
  chunk : S → Nat × S
  write : Bytes → S → S

/-- A serializer on one kind of buffer (`/repo/rsomeip-bytes/src/ser.rs:37`). `none`: it does not return. -/
def W (S α : Type) := S → Option (SOut α × S)

/-- Sequencing with `?` (used throughout `/repo/rsomeip-bytes/src/ser.rs`). -/
@[inline] protected def W.bind {S α β : Type} (w : W S α) (f : α → W S β) : W S β := fun s =>
  match w s with
  | some (.ok a, s') => f a s'
  | some (.err e, s') => some (.err e, s')
  | some (.panic, s') => some (.panic, s')
  | none => none

/-- `Ok(a)` (`/repo/rsomeip-bytes/src/ser.rs`, every function). -/
@[inline] protected def W.pure {S α : Type} (a : α) : W S α := fun s => some (.ok a, s)

/-- `?` between the writes of a `serialize` (`/repo/rsomeip-bytes/src/ser.rs:66-87`). -/
instance {S : Type} : Monad (W S) where
  pure := W.pure
  bind := W.bind

section
variable {S : Type} [Sink S]

/-- `return Err(e)` (`/repo/rsomeip-bytes/src/ser.rs:68-71`). -/
def W.fail {α : Type} (e : SerErr) : W S α := fun s => some (.err e, s)

/-- The loop of `BufMut::put_slice` (`bytes`, called at `/repo/rsomeip-bytes/src/ser.rs:248`): copy what goes into
the next piece, advance, go on. With an empty piece it would go on for ever. -/
def putLoop (xs : Bytes) : W S Unit := fun s =>
  if xs = [] then some (.ok (), s)
  else
    let cnt := min xs.length (Sink.chunk s).1
    if cnt = 0 then none
    else putLoop (xs.drop cnt) (Sink.write (xs.take cnt) (Sink.chunk s).2)
termination_by xs.length
decreasing_by
  simp only [List.length_drop]
  have : 0 < xs.length := List.length_pos_iff.mpr ‹_›
  omega

/-- `BufMut::put_slice` (`/repo/rsomeip-bytes/src/ser.rs:248`; also what `put_u16` etc. at `ser.rs:114` amount to):
panics if there is not enough room. Simplified: some buffers have implementations of their own, to the same
effect. -/
def W.putSlice (xs : Bytes) : W S Unit := fun s =>
  match Sink.room s with
  | none => putLoop xs s
  | some r => if r < xs.length then some (.panic, s) else putLoop xs s

/-- `serialize_basic_type!` (`/repo/rsomeip-bytes/src/ser.rs:110-134`). -/
def put {α : Type} (k : Nat) (bits : α → Nat) (v : α) : W S Nat := do
  W.putSlice (natToBE k (bits v))
  pure k

/-- `impl Serialize for bool` (`/repo/rsomeip-bytes/src/ser.rs:136-148`). -/
def putBool (v : Bool) : W S Nat :=
  if v then put 1 UInt8.toNat 1 else put 1 UInt8.toNat 0

/-- `impl Serialize for &[T]`, `Vec<T>` and `[T; N]` (`/repo/rsomeip-bytes/src/ser.rs:163-208`). -/
def putList {α : Type} (w : α → W S Nat) : Nat → List α → W S Nat
  | total, [] => pure total
  | total, v :: vs => do
    let n ← w v
    putList w (total + n) vs

/-- `impl Serialize for Bytes` (`/repo/rsomeip-bytes/src/ser.rs:246-255`). -/
def putBytes (v : Bytes) : W S Nat := do
  W.putSlice v
  pure v.length

/-- `Serialize::serialize_len` (`/repo/rsomeip-bytes/src/ser.rs:61-88`) for a value of size `hint` written by `w`. -/
def putLen (hint : Nat) (w : W S Nat) (l : LengthField) : W S Nat := do
  let size ←
    match l with
    | .u8 => if hint ≤ 255 then put 1 UInt8.toNat (UInt8.ofNat hint) else W.fail (.invalidLength hint 255)
    | .u16 =>
      if hint ≤ 65535 then put 2 UInt16.toNat (UInt16.ofNat hint) else W.fail (.invalidLength hint 65535)
    | .u32 =>
      if hint ≤ 4294967295 then put 4 UInt32.toNat (UInt32.ofNat hint)
      else W.fail (.invalidLength hint 4294967295)
  let n ← w
  pure (size + n)

/-- One component of `serialize_tuple!` (`/repo/rsomeip-bytes/src/ser.rs:210-244`), then the others. Simplified as
`Ser.tcons`. -/
def putCons (w w' : W S Nat) : W S Nat := do
  let n ← w
  let m ← w'
  pure (n + m)

/-- `serialize_utf8(buffer, None)` (`/repo/rsomeip-bytes/src/ser.rs:360-374`). -/
def putUtf8 (s : List Char) : W S Nat :=
  putCons (putList (put 1 UInt8.toNat) 0 [0xef, 0xbb, 0xbf])
    (putCons (putList (put 1 UInt8.toNat) 0 (utf8Encode s)) (putCons (put 1 UInt8.toNat 0x00) (pure 0)))

/-- The `for value in encode_utf16()` loops (`/repo/rsomeip-bytes/src/ser.rs:420-422,426-428`). -/
def utf16Loop (e : Endian) : Nat → List UInt16 → W S Nat
  | size, [] => pure size
  | size, u :: us => do
    let n ← putList (put 1 UInt8.toNat) 0 (Ser.unitBytes e u).1
    utf16Loop e (size + n) us

/-- `impl Serialize for Utf16String` (`/repo/rsomeip-bytes/src/ser.rs:414-442`). -/
def putUtf16 (e : Endian) (s : List Char) : W S Nat := do
  let n ← put 2 UInt16.toNat (Ser.mark e)
  let m ← utf16Loop e n (utf16Encode s)
  let k ← put 2 UInt16.toNat 0x0000
  pure (m + k)

/-- The `Serialize` implementation of each type (`/repo/rsomeip-bytes/src/ser.rs:110-255,359-442`). -/
def ser : (t : Ty) → t.Val → W S Nat
  | .u8, v => put 1 UInt8.toNat v
  | .u16, v => put 2 UInt16.toNat v
  | .u32, v => put 4 UInt32.toNat v
  | .u64, v => put 8 UInt64.toNat v
  | .i8, v => put 1 (fun v : Int8 => v.toBitVec.toNat) v
  | .i16, v => put 2 (fun v : Int16 => v.toBitVec.toNat) v
  | .i32, v => put 4 (fun v : Int32 => v.toBitVec.toNat) v
  | .i64, v => put 8 (fun v : Int64 => v.toBitVec.toNat) v
  | .f32, v => put 4 BitVec.toNat v
  | .f64, v => put 8 BitVec.toNat v
  | .bool, v => putBool v
  | .bytes, v => putBytes v
  | .utf8, v => putUtf8 v
  | .utf16 e, v => putUtf16 e v
  | .vec t, v => putList (ser t) 0 v
  | .array _ t, v => putList (ser t) 0 v.1
  | .unit, _ => pure 0
  | .pair a b, v => putCons (ser a v.1) (ser b v.2)
  | .len l t, v => putLen (t.ser.sizeHint v) (ser t v) l

open Proto

/-- `impl Serialize for Header` (`/repo/rsomeip-proto/src/message.rs:818-841`). -/
def putHeader (h : Header) : W S Nat :=
  putCons (put 2 UInt16.toNat h.client.val) (putCons (put 2 UInt16.toNat h.session.val)
    (putCons (put 1 UInt8.toNat h.protocol.val) (putCons (put 1 UInt8.toNat h.interface.val)
      (putCons (put 1 UInt8.toNat h.messageType.val) (putCons (put 1 UInt8.toNat h.returnCode.asU8)
        (pure 0))))))

/-- `impl Serialize for Message<T>` of `rsomeip-proto` (`/repo/rsomeip-proto/src/message.rs:537-555`), whose body,
of size `hint`, is written by `w`. -/
def putMessage {β : Type} (hint : β → Nat) (w : β → W S Nat) (m : Proto.Message β) : W S Nat := do
  let s1 ← putCons (put 2 UInt16.toNat m.service.val) (putCons (put 2 UInt16.toNat m.method.val) (pure 0))
  let s2 ← putLen (Header.ser.sizeHint m.header + (hint m.body + 0))
    (putCons (putHeader m.header) (putCons (w m.body) (pure 0))) .u32
  pure (s1 + s2)

/-- `impl Serialize for TpHeader` (`/repo/rsomeip-proto/src/tp.rs:179-197`). -/
def putTp (h : TpHeader) : W S Nat :=
  if h.offset > TpHeader.maxOffset then W.fail (.other (.tpOffset h.offset))
  else putCons (put 4 UInt32.toNat h.word) (putCons (putBytes h.body) (pure 0))

/-- `Endpoint::process` (`/repo/rsomeip-proto/src/endpoint.rs:222-271`). -/
def process {β : Type} (hint : β → Nat) (w : β → W S Nat) (e : Endpoint) (m : Proto.Message β) (s : S) :
    Option (Run (Except (EndpointError β) Nat) × S) :=
  if m.protocol ≠ ⟨1⟩ then
    some (.done (.error (.invalidMessage m .wrongProtocolVersion)), s)
  else
    match e.interfaces.get m.service with
    | none => some (.done (.error (.invalidMessage m .unknownService)), s)
    | some i =>
      match i.check m .outgoing with
      | .error (.invalid c) => some (.done (.error (.invalidMessage m c)), s)
      | .error (.dropped c) => some (.done (.error (.messageDropped m c)), s)
      | .ok () =>
        match putMessage hint w m s with
        | some (.ok n, s') => some (.done (.ok n), s')
        | some (.err x, s') => some (.done (.error (.invalidInput x)), s')
        | some (.panic, s') => some (.panic, s')
        | none => none

/-- `impl Serialize for Message<T>` of the crate `rsomeip` (`/repo/rsomeip/src/someip.rs:239-278`), whose payload,
of size `hint`, is written by `w`. -/
def putSomeip {β : Type} (hint : β → Nat) (w : β → W S Nat) (m : Someip.Message β) : W S Nat := do
  let s1 ← put 4 UInt32.toNat m.id
  let s2 ← putLen (2 + (2 + (1 + (1 + (1 + (1 + (hint m.payload + 0)))))))
    (putCons (put 2 UInt16.toNat m.client) (putCons (put 2 UInt16.toNat m.session)
      (putCons (put 1 UInt8.toNat m.protocol) (putCons (put 1 UInt8.toNat m.interface)
        (putCons (put 1 UInt8.toNat m.messageType.asU8) (putCons (put 1 UInt8.toNat m.returnCode.asU8)
          (putCons (w m.payload) (pure 0)))))))) .u32
  pure (s1 + s2)

end

/-- A buffer of many free pieces of memory: `Chain` of slices and the like (`bytes`, re-exported in
`/repo/rsomeip-bytes/src/lib.rs:4`): what was written and the sizes of the pieces left. -/
structure Slots where
  data : Bytes
  free : List Nat

/-- The first piece with room (`Chain::chunk_mut` and the like, `bytes`, re-exported in
`/repo/rsomeip-bytes/src/lib.rs:4`). -/
def Slots.first : List Nat → Nat
  | [] => 0
  | n :: ns => if n = 0 then first ns else n

/-- Taking `k` bytes of the free pieces (`Chain::advance_mut` and the like, `bytes`, re-exported in
`/repo/rsomeip-bytes/src/lib.rs:4`). -/
def Slots.use : Nat → List Nat → List Nat
  | _, [] => []
  | k, n :: ns => if k < n then (n - k) :: ns else use (k - n) ns

/-- `bytes::BufMut` for buffers of many pieces (`/repo/rsomeip-bytes/src/lib.rs:4`). -/
instance : Sink Slots where
  room s := some s.free.sum
  chunk s := (Slots.first s.free, s)
  write xs s := ⟨s.data ++ xs, Slots.use xs.length s.free⟩

/-- `BytesMut`, `Vec<u8>` (`/repo/rsomeip-bytes/src/lib.rs:4`): what was written and how much goes into the memory
allocated so far. -/
structure Growing where
  data : Bytes
  spare : Nat

/-- `bytes::BufMut` for buffers that grow (`/repo/rsomeip-bytes/src/lib.rs:4`): 64 bytes more when the memory is
used up. -/
instance : Sink Growing where
  room _ := none
  chunk s := if s.spare = 0 then (64, ⟨s.data, 64⟩) else (s.spare, s)
  write xs s := ⟨s.data ++ xs, s.spare - xs.length⟩

end Rsomeip.Any
