import Verif.Proto.Endpoint
import Verif.Proto.Tp
import Verif.Someip.Message
import Verif.Bytes.Universe

/-!
# Deserialization from any buffer

`Deserialize::deserialize` takes `&mut impl Buf` (`/repo/rsomeip-bytes/src/de.rs:38`): any type that
implements the trait, one piece of memory or many. `Verif.Bytes.Buf` knows a buffer by the bytes in it;
here the same functions are written once more for a buffer of which only the operations are known.
-/

namespace Rsomeip.Any

/-- The required methods of `bytes::Buf` (the trait is re-exported in `/repo/rsomeip-bytes/src/lib.rs:4`; the
trait bound is at `/repo/rsomeip-bytes/src/de.rs:38`). `chunk` is the piece of memory that comes next, which may
be shorter than what remains; `advance` panics beyond the end. -/
class Buf (B : Type) where
  remaining : B → Nat
  chunk : B → Bytes
  advance : Nat → B → Out Unit × B

/-- `buffer.take(limit)` (`/repo/rsomeip-bytes/src/de.rs:75`). -/
structure Take (B : Type) where
  inner : B
  limit : Nat

/-- `Take` is a buffer again (`/repo/rsomeip-bytes/src/de.rs:75-76`): it does not go beyond the limit. -/
instance {B : Type} [Buf B] : Buf (Take B) where
  remaining t := min (Buf.remaining t.inner) t.limit
  chunk t := (Buf.chunk t.inner).take t.limit
  advance k t :=
    if t.limit < k then (.panic, t)
    else
      let (o, b) := Buf.advance k t.inner
      (o, ⟨b, t.limit - k⟩)

/-- A deserializer on one kind of buffer (`/repo/rsomeip-bytes/src/de.rs:38`). -/
def D (B α : Type) := B → Out α × B

/-- A deserializer, for every kind of buffer: `fn deserialize(buffer: &mut impl Buf)`
(`/repo/rsomeip-bytes/src/de.rs:38`). -/
def Gen (α : Type) := ∀ (B : Type) [Buf B], D B α

/-- Sequencing with `?` (used throughout `/repo/rsomeip-bytes/src/de.rs`). -/
@[inline] protected def D.bind {B α β : Type} (d : D B α) (f : α → D B β) : D B β := fun b =>
  match d b with
  | (.ok a, r) => f a r
  | (.err e, r) => (.err e, r)
  | (.panic, r) => (.panic, r)
  | (.diverge, r) => (.diverge, r)

/-- `Ok(a)` without touching the buffer (`/repo/rsomeip-bytes/src/de.rs`, every function). -/
@[inline] protected def D.pure {B α : Type} (a : α) : D B α := fun b => (.ok a, b)

/-- `?` between the reads of a `deserialize` (`/repo/rsomeip-bytes/src/de.rs:69-76`). -/
instance {B : Type} : Monad (D B) where
  pure := D.pure
  bind := D.bind

section
variable {B : Type} [Buf B]

/-- `return Err(e)` (`/repo/rsomeip-bytes/src/de.rs:87,185,224`). -/
def D.fail {α : Type} (e : DeErr) : D B α := fun b => (.err e, b)

/-- `buffer.remaining()` (`/repo/rsomeip-bytes/src/de.rs:86`). -/
def D.remaining : D B Nat := fun b => (.ok (Buf.remaining b), b)

/-- The loop of `Buf::copy_to_slice` (`bytes`; what `get_u16` and so on, `/repo/rsomeip-bytes/src/de.rs:92`, do
when the next piece is too short): copy what the next piece has, advance, go on. An empty piece with bytes
still to come would be looked at for ever. -/
def copyLoop (k : Nat) : D B Bytes := fun b =>
  if k = 0 then (.ok [], b)
  else
    let cnt := min (Buf.chunk b).length k
    if cnt = 0 then (.diverge, b)
    else
      match Buf.advance cnt b with
      | (.ok (), b') =>
        match copyLoop (k - cnt) b' with
        | (.ok bs, b'') => (.ok ((Buf.chunk b).take cnt ++ bs), b'')
        | other => other
      | (.err e, b') => (.err e, b')
      | (.panic, b') => (.panic, b')
      | (.diverge, b') => (.diverge, b')
termination_by k
decreasing_by omega

/-- `buffer.copy_to_bytes(k)` (`/repo/rsomeip-bytes/src/de.rs:235`, `/repo/rsomeip-proto/src/tp.rs:211`), and the
bytes from which `get_u16` and so on make a number (`/repo/rsomeip-bytes/src/de.rs:92,119`): panics if they are
not there. Simplified: some buffers have implementations of their own, which share memory instead of
copying it or read a whole piece at once. -/
def D.copy (k : Nat) : D B Bytes := fun b =>
  if Buf.remaining b < k then (.panic, b) else copyLoop k b

/-- `buffer.get_u8()`, `get_u16()`, ... (`/repo/rsomeip-bytes/src/de.rs:92,119`). -/
def D.getBE (k : Nat) : D B Nat := do
  let bs ← D.copy k
  pure (beToNat bs)

/-- `deserialize_basic_type!` (`/repo/rsomeip-bytes/src/de.rs:80-107`). -/
def prim {α : Type} (k : Nat) (ofBits : Nat → α) : D B α := do
  let available ← D.remaining
  if available < k then
    D.fail (.insufficientData k available)
  else
    let n ← D.getBE k
    pure (ofBits n)

/-- `impl Deserialize for bool` (`/repo/rsomeip-bytes/src/de.rs:109-121`). -/
def bool : D B Bool := do
  let available ← D.remaining
  if available < 1 then
    D.fail (.insufficientData 1 available)
  else
    let n ← D.getBE 1
    pure (UInt8.ofNat n &&& 0x01 == 0x01)

/-- `T::deserialize(buffer).unwrap_or_default()` (`/repo/rsomeip-bytes/src/de.rs:131`). -/
def orDefault {α : Type} (d : D B α) (dflt : α) : D B α := fun b =>
  match d b with
  | (.err _, r) => (.ok dflt, r)
  | other => other

/-- `impl Deserialize for [T; N]` (`/repo/rsomeip-bytes/src/de.rs:123-134`). -/
def array {α : Type} (d : D B α) (dflt : α) : (n : Nat) → D B (Arr α n)
  | 0 => pure ⟨[], rfl⟩
  | n + 1 => do
    let v ← orDefault d dflt
    let vs ← array d dflt n
    pure ⟨v :: vs.1, by simp [vs.2]⟩

/-- `impl Deserialize for Vec<T>` (`/repo/rsomeip-bytes/src/de.rs:136-149`). As in `Dec.vec`: an iteration
that takes nothing from the buffer would be repeated for ever. -/
def vec {α : Type} (d : D B α) : D B (List α) := fun b =>
  if Buf.remaining b = 0 then (.ok [], b)
  else
    match d b with
    | (.ok a, r) =>
      if Buf.remaining r < Buf.remaining b then
        match vec d r with
        | (.ok as, r') => (.ok (a :: as), r')
        | other => other
      else (.diverge, r)
    | (.err e, r) => (.err e, r)
    | (.panic, r) => (.panic, r)
    | (.diverge, r) => (.diverge, r)
termination_by b => Buf.remaining b

/-- End of a tuple in `deserialize_tuple!` (`/repo/rsomeip-bytes/src/de.rs:151-175`). -/
def tnil : D B Unit := pure ()

/-- One component of `deserialize_tuple!` (`/repo/rsomeip-bytes/src/de.rs:151-175`). -/
def tcons {α β : Type} (a : D B α) (b : D B β) : D B (α × β) := do
  let x ← a
  let y ← b
  pure (x, y)

/-- `impl Deserialize for Bytes` (`/repo/rsomeip-bytes/src/de.rs:231-237`). -/
def bytes : D B Bytes := do
  let n ← D.remaining
  D.copy n

/-- `let mut payload = buffer.take(n); T::deserialize(&mut payload)`
(`/repo/rsomeip-bytes/src/de.rs:75-76`): the deserializer is used at another kind of buffer. -/
def take {α : Type} (n : Nat) (d : Gen α) : D B α := fun b =>
  let (o, t) := d (Take B) ⟨b, n⟩
  (o, t.inner)

/-- `Deserialize::deserialize_len` (`/repo/rsomeip-bytes/src/de.rs:64-77`). Simplified as `Dec.len`. -/
def len {α : Type} (d : Gen α) (l : LengthField) : D B α := do
  let length ←
    match l with
    | .u8 => (do let x ← prim 1 UInt8.ofNat; pure x.toNat)
    | .u16 => (do let x ← prim 2 UInt16.ofNat; pure x.toNat)
    | .u32 => (do let x ← prim 4 UInt32.ofNat; pure x.toNat)
  take length d

/-- `loop { let value = ..?; if value == 0 { break }; raw_string.push(value) }`
(`/repo/rsomeip-bytes/src/de.rs:190-196` and `:206-216`), as `Dec.untilZero`. -/
def untilZero {α : Type} [DecidableEq α] (zero : α) (rd : D B α) (acc : List α) : D B (List α) := fun b =>
  match rd b with
  | (.ok v, r) =>
    if v = zero then (.ok acc, r)
    else if Buf.remaining r < Buf.remaining b then untilZero zero rd (acc ++ [v]) r
    else (.diverge, r)
  | (.err e, r) => (.err e, r)
  | (.panic, r) => (.panic, r)
  | (.diverge, r) => (.diverge, r)
termination_by b => Buf.remaining b

/-- `deserialize_utf8` (`/repo/rsomeip-bytes/src/de.rs:182-199`). -/
def utf8 : D B (List Char) := do
  let bom ← prim 1 UInt8.ofNat
  if bom ≠ 0xbf then
    D.fail (.other (.utf8Mark bom))
  else
    let raw ← untilZero 0x00 (prim 1 UInt8.ofNat) []
    match utf8Decode raw with
    | some s => pure s
    | none => D.fail (.other .invalidUtf8)

/-- The code unit reader of `deserialize_utf16` (`/repo/rsomeip-bytes/src/de.rs:207-211`). -/
def utf16Unit (host : Endian) (isBe : Bool) : D B UInt16 :=
  if isBe then prim 2 UInt16.ofNat else do
    let v ← prim 2 UInt16.ofNat
    pure (Dec.fromBe host v)

/-- `deserialize_utf16` (`/repo/rsomeip-bytes/src/de.rs:201-219`). -/
def utf16 (host : Endian) (isBe : Bool) : D B (List Char) := do
  let raw ← untilZero 0x0000 (utf16Unit host isBe) []
  match utf16Decode raw with
  | some s => pure s
  | none => D.fail (.other .invalidUtf16)

/-- `impl Deserialize for String` (`/repo/rsomeip-bytes/src/de.rs:177-229`). -/
def string (host : Endian) : D B (List Char) := do
  let value ← prim 2 UInt16.ofNat
  if value = 0xefbb then utf8
  else if value = 0xfeff then utf16 host true
  else if value = 0xfffe then utf16 host false
  else D.fail (.other (.mark value))

end

/-- The `Deserialize` implementation of each type (`/repo/rsomeip-bytes/src/de.rs:80-237`), on a host with the
given byte order. -/
def de (host : Endian) : (t : Ty) → Gen t.Val
  | .u8 => fun _ => prim 1 UInt8.ofNat
  | .u16 => fun _ => prim 2 UInt16.ofNat
  | .u32 => fun _ => prim 4 UInt32.ofNat
  | .u64 => fun _ => prim 8 UInt64.ofNat
  | .i8 => fun _ => prim 1 fun n => Int8.ofBitVec (BitVec.ofNat 8 n)
  | .i16 => fun _ => prim 2 fun n => Int16.ofBitVec (BitVec.ofNat 16 n)
  | .i32 => fun _ => prim 4 fun n => Int32.ofBitVec (BitVec.ofNat 32 n)
  | .i64 => fun _ => prim 8 fun n => Int64.ofBitVec (BitVec.ofNat 64 n)
  | .f32 => fun _ => prim 4 (BitVec.ofNat 32)
  | .f64 => fun _ => prim 8 (BitVec.ofNat 64)
  | .bool => fun _ => bool
  | .bytes => fun _ => bytes
  | .utf8 => fun _ => string host
  | .utf16 _ => fun _ => string host
  | .vec t => fun B => vec (de host t B)
  | .array n t => fun B => array (de host t B) t.dflt n
  | .unit => fun _ => tnil
  | .pair a b => fun B => tcons (de host a B) (de host b B)
  | .len l t => fun _ => len (de host t) l

/-- Deserialize and convert (`/repo/rsomeip-proto/src/primitives.rs:73-76,256-258`). -/
def map {B α β : Type} (d : D B α) (f : α → β) : D B β := do
  let a ← d
  pure (f a)

section
open Proto

/-- `impl Deserialize for Header` (`/repo/rsomeip-proto/src/message.rs:843-856`). -/
def header : Gen Header := fun _ => do
  let client ← map (prim 2 UInt16.ofNat) ClientId.mk
  let session ← map (prim 2 UInt16.ofNat) SessionId.mk
  let protocol ← map (prim 1 UInt8.ofNat) ProtocolVersion.mk
  let interface ← map (prim 1 UInt8.ofNat) InterfaceVersion.mk
  let messageType ← map (prim 1 UInt8.ofNat) MessageTypeField.mk
  let returnCode ← map (prim 1 UInt8.ofNat) ReturnCode.fromU8
  pure { client, session, protocol, interface, messageType, returnCode }

/-- `impl Deserialize for GenericMessage<H, B>` (`/repo/rsomeip-proto/src/message.rs:557-574`), also
`from_bytes` (`:597-599`). -/
def generic {η β : Type} (h : Gen η) (b : Gen β) : Gen (GenericMessage η β) := fun _ => do
  let (service, method, ()) ← tcons (map (prim 2 UInt16.ofNat) ServiceId.mk)
    (tcons (map (prim 2 UInt16.ofNat) MethodId.mk) tnil)
  let (header, body, ()) ← len (fun B => tcons (h B) (tcons (b B) tnil)) .u32
  pure { service, method, header, body }

/-- `impl Deserialize for TpHeader` (`/repo/rsomeip-proto/src/tp.rs:199-214`). Simplified as
`TpHeader.de`. -/
def tpHeader : Gen TpHeader := fun _ => do
  let header ← prim 4 UInt32.ofNat
  let n ← D.remaining
  let body ← D.copy n
  pure { offset := ((header &&& 0xffff_fff0) >>> 4).toNat
         moreSegments := header &&& 1 == 1
         body := body }

/-- `Endpoint::poll` (`/repo/rsomeip-proto/src/endpoint.rs:136-181`) for payloads read by `d`. -/
def poll {B β : Type} [Buf B] (d : Gen β) (e : Endpoint) (b : B) :
    Run (Except (EndpointError β) (Proto.Message β)) × B :=
  match generic header d B b with
  | (.ok m, r) => (.done (e.accept m), r)
  | (.err x, r) => (.done (.error (.invalidData x)), r)
  | (.panic, r) => (.panic, r)
  | (.diverge, r) => (.diverge, r)

/-- `Message::into_segment` (`/repo/rsomeip-proto/src/tp.rs:251-254`) for payloads that are buffers. -/
def intoSegment {B : Type} [Buf B] (m : Proto.Message B) : Out (Proto.Message TpHeader) :=
  match tpHeader B m.body with
  | (.ok h, _) => .ok (m.mapBody fun _ => h)
  | (.err e, _) => .err e
  | (.panic, _) => .panic
  | (.diverge, _) => .diverge

/-- `Message::wrap_segment` (`/repo/rsomeip-proto/src/tp.rs:268-270`) for payloads that are buffers. -/
def wrapSegment {B : Type} [Buf B] (m : Proto.Message B) : Out (Proto.Message TpHeader) :=
  match bytes m.body with
  | (.ok bs, _) => .ok (m.mapBody fun _ => TpHeader.new bs)
  | (.err e, _) => .err e
  | (.panic, _) => .panic
  | (.diverge, _) => .diverge

end

/-- `impl Deserialize for Message<T>` in the crate `rsomeip` (`/repo/rsomeip/src/someip.rs:280-309`). -/
def message {β : Type} (b : Gen β) : Gen (Someip.Message β) := fun _ => do
  let id ← prim 4 UInt32.ofNat
  let (request, protocol, interface, messageType, returnCode, payload, ()) ←
    len (fun B => tcons (prim 4 UInt32.ofNat) (tcons (prim 1 UInt8.ofNat) (tcons (prim 1 UInt8.ofNat)
      (tcons (map (prim 1 UInt8.ofNat) Someip.MessageType.fromU8)
      (tcons (map (prim 1 UInt8.ofNat) Someip.ReturnCode.fromU8) (tcons (b B) tnil)))))) .u32
  pure ((((((((Someip.Message.new payload).withId id).withRequest request).withProtocol
    protocol).withInterface interface).withType messageType).withCode returnCode))

/-- A buffer in many pieces of memory: `Chain`, `VecDeque<u8>` and the like (`bytes`, re-exported in
`/repo/rsomeip-bytes/src/lib.rs:4`). -/
structure Pieces where
  list : List Bytes

/-- The first piece that is not used up (`Chain::chunk` and the like, `bytes`, re-exported in
`/repo/rsomeip-bytes/src/lib.rs:4`). -/
def Pieces.first : List Bytes → Bytes
  | [] => []
  | p :: ps => if p = [] then first ps else p

/-- Going on by `k` bytes (`Chain::advance` and the like, `bytes`, re-exported in
`/repo/rsomeip-bytes/src/lib.rs:4`): a piece that is used up is left. -/
def Pieces.skip : Nat → List Bytes → List Bytes
  | _, [] => []
  | k, p :: ps => if k < p.length then p.drop k :: ps else skip (k - p.length) ps

/-- `bytes::Buf` for buffers of many pieces (`/repo/rsomeip-bytes/src/lib.rs:4`). -/
instance : Buf Pieces where
  remaining b := (b.list.map List.length).sum
  chunk b := Pieces.first b.list
  advance k b :=
    if (b.list.map List.length).sum < k then (.panic, b) else (.ok (), ⟨Pieces.skip k b.list⟩)

/-- `Bytes`, `&[u8]`: one piece of memory (`/repo/rsomeip-bytes/src/lib.rs:4`). -/
instance : Buf Bytes where
  remaining b := b.length
  chunk b := b
  advance k b := if b.length < k then (.panic, b) else (.ok (), b.drop k)

end Rsomeip.Any
