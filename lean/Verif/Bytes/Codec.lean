import Verif.Bytes.Buf

/-!
# `Serialize` and `Deserialize`

Transcription of `/repo/rsomeip-bytes/src/ser.rs` and `/repo/rsomeip-bytes/src/de.rs` except
strings (see `Verif.Bytes.Str`). A trait implementation is a dictionary; generic
implementations are functions between dictionaries.
-/

namespace Rsomeip

/-- An implementation of `Serialize` (`/repo/rsomeip-bytes/src/ser.rs:18-108`): the two required
methods. The provided method `serialize_len` is `Ser.serializeLen`; no type overrides it. -/
structure Ser (α : Type) where
  serialize : α → W Nat
  sizeHint : α → Nat

namespace Ser

/-- `serialize_basic_type!` (`/repo/rsomeip-bytes/src/ser.rs:110-134`) for a type of `k` bytes
whose bit pattern is `bits v`: `put_*` then `Ok(size_of)`. -/
def prim {α : Type} (k : Nat) (bits : α → Nat) : Ser α where
  serialize v := do
    W.putSlice (natToBE k (bits v))
    pure k
  sizeHint _ := k

/-- `impl Serialize for u8` (`/repo/rsomeip-bytes/src/ser.rs:125`). -/
def u8 : Ser UInt8 := prim 1 UInt8.toNat
/-- `impl Serialize for u16` (`/repo/rsomeip-bytes/src/ser.rs:126`). -/
def u16 : Ser UInt16 := prim 2 UInt16.toNat
/-- `impl Serialize for u32` (`/repo/rsomeip-bytes/src/ser.rs:127`). -/
def u32 : Ser UInt32 := prim 4 UInt32.toNat
/-- `impl Serialize for u64` (`/repo/rsomeip-bytes/src/ser.rs:128`). -/
def u64 : Ser UInt64 := prim 8 UInt64.toNat
/-- `impl Serialize for i8` (`/repo/rsomeip-bytes/src/ser.rs:129`). -/
def i8 : Ser Int8 := prim 1 fun v => v.toBitVec.toNat
/-- `impl Serialize for i16` (`/repo/rsomeip-bytes/src/ser.rs:130`). -/
def i16 : Ser Int16 := prim 2 fun v => v.toBitVec.toNat
/-- `impl Serialize for i32` (`/repo/rsomeip-bytes/src/ser.rs:131`). -/
def i32 : Ser Int32 := prim 4 fun v => v.toBitVec.toNat
/-- `impl Serialize for i64` (`/repo/rsomeip-bytes/src/ser.rs:132`). -/
def i64 : Ser Int64 := prim 8 fun v => v.toBitVec.toNat

/-- `impl Serialize for f32` (`/repo/rsomeip-bytes/src/ser.rs:133`). Simplification: a float is
represented by its IEEE-754 bit pattern (`f32::to_bits`), which is what `put_f32` writes. -/
def f32 : Ser (BitVec 32) := prim 4 BitVec.toNat
/-- `impl Serialize for f64` (`/repo/rsomeip-bytes/src/ser.rs:134`), as `f32`. -/
def f64 : Ser (BitVec 64) := prim 8 BitVec.toNat

/-- `impl Serialize for bool` (`/repo/rsomeip-bytes/src/ser.rs:136-148`). -/
def bool : Ser Bool where
  serialize v := if v then u8.serialize 1 else u8.serialize 0
  sizeHint _ := 1

/-- Loop of `impl Serialize for &[T]` (`/repo/rsomeip-bytes/src/ser.rs:168-172`): `total` is the
running sum. -/
def sliceLoop {α : Type} (s : Ser α) : Nat → List α → W Nat
  | total, [] => pure total
  | total, v :: vs => do
    let n ← s.serialize v
    sliceLoop s (total + n) vs

/-- Loop of `size_hint` for `&[T]` (`/repo/rsomeip-bytes/src/ser.rs:176-180`). -/
def sliceHint {α : Type} (s : Ser α) : Nat → List α → Nat
  | total, [] => total
  | total, v :: vs => sliceHint s (total + s.sizeHint v) vs

/-- `impl Serialize for &[T]` and `Vec<T>` (`/repo/rsomeip-bytes/src/ser.rs:163-195`). -/
def vec {α : Type} (s : Ser α) : Ser (List α) where
  serialize vs := sliceLoop s 0 vs
  sizeHint vs := sliceHint s 0 vs

end Ser

/-- A Rust array `[T; N]` (used at `/repo/rsomeip-bytes/src/ser.rs:197`): a list of length `N`. -/
abbrev Arr (α : Type) (n : Nat) := { l : List α // l.length = n }

namespace Ser

/-- `impl Serialize for [T; N]` (`/repo/rsomeip-bytes/src/ser.rs:197-208`). -/
def array {α : Type} (s : Ser α) (n : Nat) : Ser (Arr α n) where
  serialize vs := (vec s).serialize vs.1
  sizeHint vs := (vec s).sizeHint vs.1

/-- End of a tuple in `serialize_tuple!` (`/repo/rsomeip-bytes/src/ser.rs:217,219,225`):
`total = 0`. -/
def tnil : Ser Unit where
  serialize _ := pure 0
  sizeHint _ := 0

/-- One component of `serialize_tuple!` (`/repo/rsomeip-bytes/src/ser.rs:210-244`). A tuple
`(A, B, C)` is `tcons A (tcons B (tcons C tnil))`. Simplification: the sum is associated to the
right instead of to the left. -/
def tcons {α β : Type} (a : Ser α) (b : Ser β) : Ser (α × β) where
  serialize v := do
    let n ← a.serialize v.1
    let m ← b.serialize v.2
    pure (n + m)
  sizeHint v := a.sizeHint v.1 + b.sizeHint v.2

/-- `impl Serialize for Bytes` (`/repo/rsomeip-bytes/src/ser.rs:246-255`). -/
def bytes : Ser Bytes where
  serialize v := do
    W.putSlice v
    pure v.length
  sizeHint v := v.length

/-- `Serialize::serialize_len` (`/repo/rsomeip-bytes/src/ser.rs:61-88`): `uN::try_from(size_hint)`,
then the length field, then the value. -/
def serializeLen {α : Type} (s : Ser α) (l : LengthField) (v : α) : W Nat := do
  let size ←
    match l with
    | .u8 =>
      if s.sizeHint v ≤ 255 then u8.serialize (UInt8.ofNat (s.sizeHint v))
      else W.fail (.invalidLength (s.sizeHint v) 255)
    | .u16 =>
      if s.sizeHint v ≤ 65535 then u16.serialize (UInt16.ofNat (s.sizeHint v))
      else W.fail (.invalidLength (s.sizeHint v) 65535)
    | .u32 =>
      if s.sizeHint v ≤ 4294967295 then u32.serialize (UInt32.ofNat (s.sizeHint v))
      else W.fail (.invalidLength (s.sizeHint v) 4294967295)
  let n ← s.serialize v
  pure (size + n)

/-- A field written with `serialize_len` and sized with `size_hint!(length = L, ..)`
(`/repo/rsomeip-bytes/src/macros.rs:30-42` and `:61-80`), the way user types embed
length-prefixed members. -/
def len {α : Type} (s : Ser α) (l : LengthField) : Ser α where
  serialize v := s.serializeLen l v
  sizeHint v :=
    (match l with
      | .u8 => u8.sizeHint 0
      | .u16 => u16.sizeHint 0
      | .u32 => u32.sizeHint 0) + s.sizeHint v

end Ser

namespace Dec

/-- `deserialize_basic_type!` (`/repo/rsomeip-bytes/src/de.rs:80-107`) for a type of `k` bytes
with `ofBits` rebuilding the value from its bit pattern. -/
def prim {α : Type} (k : Nat) (ofBits : Nat → α) : Dec α := do
  let available ← Dec.remaining
  if available < k then
    Dec.fail (.insufficientData k available)
  else
    let n ← Dec.getBE k
    pure (ofBits n)

/-- `impl Deserialize for u8` (`/repo/rsomeip-bytes/src/de.rs:98`). -/
def u8 : Dec UInt8 := prim 1 UInt8.ofNat
/-- `impl Deserialize for u16` (`/repo/rsomeip-bytes/src/de.rs:99`). -/
def u16 : Dec UInt16 := prim 2 UInt16.ofNat
/-- `impl Deserialize for u32` (`/repo/rsomeip-bytes/src/de.rs:100`). -/
def u32 : Dec UInt32 := prim 4 UInt32.ofNat
/-- `impl Deserialize for u64` (`/repo/rsomeip-bytes/src/de.rs:101`). -/
def u64 : Dec UInt64 := prim 8 UInt64.ofNat
/-- `impl Deserialize for i8` (`/repo/rsomeip-bytes/src/de.rs:102`). -/
def i8 : Dec Int8 := prim 1 fun n => Int8.ofBitVec (BitVec.ofNat 8 n)
/-- `impl Deserialize for i16` (`/repo/rsomeip-bytes/src/de.rs:103`). -/
def i16 : Dec Int16 := prim 2 fun n => Int16.ofBitVec (BitVec.ofNat 16 n)
/-- `impl Deserialize for i32` (`/repo/rsomeip-bytes/src/de.rs:104`). -/
def i32 : Dec Int32 := prim 4 fun n => Int32.ofBitVec (BitVec.ofNat 32 n)
/-- `impl Deserialize for i64` (`/repo/rsomeip-bytes/src/de.rs:105`). -/
def i64 : Dec Int64 := prim 8 fun n => Int64.ofBitVec (BitVec.ofNat 64 n)
/-- `impl Deserialize for f32` (`/repo/rsomeip-bytes/src/de.rs:106`), as a bit pattern. -/
def f32 : Dec (BitVec 32) := prim 4 (BitVec.ofNat 32)
/-- `impl Deserialize for f64` (`/repo/rsomeip-bytes/src/de.rs:107`), as a bit pattern. -/
def f64 : Dec (BitVec 64) := prim 8 (BitVec.ofNat 64)

/-- `impl Deserialize for bool` (`/repo/rsomeip-bytes/src/de.rs:109-121`). -/
def bool : Dec Bool := do
  let available ← Dec.remaining
  if available < 1 then
    Dec.fail (.insufficientData 1 available)
  else
    let n ← Dec.getBE 1
    pure (UInt8.ofNat n &&& 0x01 == 0x01)

/-- `T::deserialize(buffer).unwrap_or_default()` (`/repo/rsomeip-bytes/src/de.rs:131`): an error
becomes the default value, whatever the failed attempt consumed stays consumed. -/
def orDefault {α : Type} (d : Dec α) (dflt : α) : Dec α := fun b =>
  match d b with
  | (.err _, r) => (.ok dflt, r)
  | other => other

/-- `impl Deserialize for [T; N]` (`/repo/rsomeip-bytes/src/de.rs:123-134`): `array::from_fn`
evaluates the closure for index `0, 1, ..., N - 1` in order. -/
def array {α : Type} (d : Dec α) (dflt : α) : (n : Nat) → Dec (Arr α n)
  | 0 => pure ⟨[], rfl⟩
  | n + 1 => do
    let v ← orDefault d dflt
    let vs ← array d dflt n
    pure ⟨v :: vs.1, by simp [vs.2]⟩

/-- `impl Deserialize for Vec<T>` (`/repo/rsomeip-bytes/src/de.rs:136-149`), literally: `n`
iterations of the `while` loop with accumulator `acc`; `none` means the loop is still running. -/
def vecFuel {α : Type} (d : Dec α) : Nat → List α → Bytes → Option (Out (List α) × Bytes)
  | 0, _, _ => none
  | n + 1, acc, b =>
    if b = [] then some (.ok acc, b)
    else
      match d b with
      | (.ok a, r) => vecFuel d n (acc ++ [a]) r
      | (.err e, r) => some (.err e, r)
      | (.panic, r) => some (.panic, r)
      | (.diverge, r) => some (.diverge, r)

/-- `impl Deserialize for Vec<T>` (`/repo/rsomeip-bytes/src/de.rs:136-149`) as a total function:
an iteration that succeeds without consuming anything would be repeated forever, since
deserializers depend on nothing but the buffer; the outcome is then `diverge`. Agreement with
the literal loop `vecFuel` is proved in `Verif.Props.VecTermination`. -/
def vec {α : Type} (d : Dec α) : Dec (List α) := fun b =>
  if b = [] then (.ok [], b)
  else
    match d b with
    | (.ok a, r) =>
      if r.length < b.length then
        match vec d r with
        | (.ok as, r') => (.ok (a :: as), r')
        | other => other
      else (.diverge, r)
    | (.err e, r) => (.err e, r)
    | (.panic, r) => (.panic, r)
    | (.diverge, r) => (.diverge, r)
termination_by b => b.length

/-- End of a tuple in `deserialize_tuple!` (`/repo/rsomeip-bytes/src/de.rs:151-175`). -/
def tnil : Dec Unit := pure ()

/-- One component of `deserialize_tuple!` (`/repo/rsomeip-bytes/src/de.rs:151-175`). -/
def tcons {α β : Type} (a : Dec α) (b : Dec β) : Dec (α × β) := do
  let x ← a
  let y ← b
  pure (x, y)

/-- `impl Deserialize for Bytes` (`/repo/rsomeip-bytes/src/de.rs:231-237`). -/
def bytes : Dec Bytes := do
  let n ← Dec.remaining
  Dec.copyToBytes n

/-- `Deserialize::deserialize_len` (`/repo/rsomeip-bytes/src/de.rs:64-77`). Simplification: the
`u32`-to-`usize` conversion at `:71` cannot fail on a 64-bit host. -/
def len {α : Type} (d : Dec α) (l : LengthField) : Dec α := do
  let length ←
    match l with
    | .u8 => (do let x ← Dec.u8; pure x.toNat)
    | .u16 => (do let x ← Dec.u16; pure x.toNat)
    | .u32 => (do let x ← Dec.u32; pure x.toNat)
  Dec.take length d

end Dec

end Rsomeip
