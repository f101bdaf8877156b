import Verif.Bytes.Str

/-!
# The family of serializable types

Every type to which `rsomeip-bytes` gives `Serialize`/`Deserialize` implementations, closed under
the generic implementations and under length-prefixed members (`serialize_into!(.., length = L, ..)`,
`/repo/rsomeip-bytes/src/macros.rs:30-42`). User types are tuples of such members.
-/

namespace Rsomeip

/-- Codes of the serializable types (`impl`s in `/repo/rsomeip-bytes/src/ser.rs:110-255,359-442` and
`/repo/rsomeip-bytes/src/de.rs:80-237`). `unit`/`pair` build tuples, see `Ser.tcons`. -/
inductive Ty where
  | u8 | u16 | u32 | u64 | i8 | i16 | i32 | i64 | f32 | f64 | bool
  | bytes
  | utf8
  | utf16 (e : Endian)
  | vec (t : Ty)
  | array (n : Nat) (t : Ty)
  | unit
  | pair (a b : Ty)
  | len (l : LengthField) (t : Ty)
  deriving DecidableEq, Repr

namespace Ty

/-- The values of a type (`/repo/rsomeip-bytes/src/ser.rs:110-255`). Floats are bit patterns,
strings are lists of scalar values. -/
def Val : Ty → Type
  | u8 => UInt8
  | u16 => UInt16
  | u32 => UInt32
  | u64 => UInt64
  | i8 => Int8
  | i16 => Int16
  | i32 => Int32
  | i64 => Int64
  | f32 => BitVec 32
  | f64 => BitVec 64
  | bool => Bool
  | bytes => Bytes
  | utf8 => List Char
  | utf16 _ => List Char
  | vec t => List t.Val
  | array n t => Arr t.Val n
  | unit => Unit
  | pair a b => a.Val × b.Val
  | len _ t => t.Val

/-- Equality of values is decidable (`#[derive(PartialEq)]` in user code, e.g.
`/repo/rsomeip-proto/src/message.rs:25`). Simplification: floats are compared as bit patterns. -/
instance decEqVal : (t : Ty) → DecidableEq t.Val
  | u8 => inferInstanceAs (DecidableEq UInt8)
  | u16 => inferInstanceAs (DecidableEq UInt16)
  | u32 => inferInstanceAs (DecidableEq UInt32)
  | u64 => inferInstanceAs (DecidableEq UInt64)
  | i8 => inferInstanceAs (DecidableEq Int8)
  | i16 => inferInstanceAs (DecidableEq Int16)
  | i32 => inferInstanceAs (DecidableEq Int32)
  | i64 => inferInstanceAs (DecidableEq Int64)
  | f32 => inferInstanceAs (DecidableEq (BitVec 32))
  | f64 => inferInstanceAs (DecidableEq (BitVec 64))
  | bool => inferInstanceAs (DecidableEq Bool)
  | bytes => inferInstanceAs (DecidableEq (List UInt8))
  | utf8 => inferInstanceAs (DecidableEq (List Char))
  | utf16 _ => inferInstanceAs (DecidableEq (List Char))
  | vec t => have := decEqVal t; inferInstanceAs (DecidableEq (List t.Val))
  | array n t => have := decEqVal t; inferInstanceAs (DecidableEq (Arr t.Val n))
  | unit => inferInstanceAs (DecidableEq Unit)
  | pair a b => have := decEqVal a; have := decEqVal b; inferInstanceAs (DecidableEq (a.Val × b.Val))
  | len _ t => decEqVal t

/-- The `Serialize` implementation of each type (`/repo/rsomeip-bytes/src/ser.rs:110-255,359-442`). -/
def ser : (t : Ty) → Ser t.Val
  | u8 => Ser.u8
  | u16 => Ser.u16
  | u32 => Ser.u32
  | u64 => Ser.u64
  | i8 => Ser.i8
  | i16 => Ser.i16
  | i32 => Ser.i32
  | i64 => Ser.i64
  | f32 => Ser.f32
  | f64 => Ser.f64
  | bool => Ser.bool
  | bytes => Ser.bytes
  | utf8 => Ser.utf8
  | utf16 e => Ser.utf16 e
  | vec t => Ser.vec t.ser
  | array n t => Ser.array t.ser n
  | unit => Ser.tnil
  | pair a b => Ser.tcons a.ser b.ser
  | len l t => Ser.len t.ser l

/-- `Default::default()` of each type, used by array decoding
(`/repo/rsomeip-bytes/src/de.rs:125,131`). -/
def dflt : (t : Ty) → t.Val
  | u8 => (0 : UInt8)
  | u16 => (0 : UInt16)
  | u32 => (0 : UInt32)
  | u64 => (0 : UInt64)
  | i8 => (0 : Int8)
  | i16 => (0 : Int16)
  | i32 => (0 : Int32)
  | i64 => (0 : Int64)
  | f32 => (0 : BitVec 32)
  | f64 => (0 : BitVec 64)
  | bool => false
  | bytes => ([] : Bytes)
  | utf8 => ([] : List Char)
  | utf16 _ => ([] : List Char)
  | vec t => ([] : List t.Val)
  | array n t => (⟨List.replicate n t.dflt, by simp⟩ : Arr t.Val n)
  | unit => ()
  | pair a b => (a.dflt, b.dflt)
  | len _ t => t.dflt

/-- The `Deserialize` implementation of each type (`/repo/rsomeip-bytes/src/de.rs:80-237`), on a
host with the given byte order. -/
def de (host : Endian) : (t : Ty) → Dec t.Val
  | u8 => Dec.u8
  | u16 => Dec.u16
  | u32 => Dec.u32
  | u64 => Dec.u64
  | i8 => Dec.i8
  | i16 => Dec.i16
  | i32 => Dec.i32
  | i64 => Dec.i64
  | f32 => Dec.f32
  | f64 => Dec.f64
  | bool => Dec.bool
  | bytes => Dec.bytes
  | utf8 => Dec.string host
  | utf16 _ => Dec.string host
  | vec t => Dec.vec (t.de host)
  | array n t => Dec.array (t.de host) t.dflt n
  | unit => Dec.tnil
  | pair a b => Dec.tcons (a.de host) (b.de host)
  | len l t => Dec.len (t.de host) l

end Ty

end Rsomeip
