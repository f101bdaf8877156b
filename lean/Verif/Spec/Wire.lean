import Verif.Bytes.Universe

/-!
# Specification of the SOME/IP wire format of data types

Independent of the transcribed code: what bytes a value should become. Used to state the
properties.
-/

namespace Rsomeip.Spec

/-- The `k` bytes of `n`, most significant first. -/
def be (k n : Nat) : Bytes :=
  (List.range k).map fun i => UInt8.ofNat (n / 256 ^ (k - 1 - i) % 256)

/-- UTF-16 code units of a scalar value. -/
def utf16Units (c : Char) : List Nat :=
  if c.toNat ≤ 0xffff then [c.toNat]
  else [0xd800 + (c.toNat - 0x10000) / 0x400, 0xdc00 + (c.toNat - 0x10000) % 0x400]

/-- Two bytes of a code unit in the given order. -/
def unit16 : Endian → Nat → Bytes
  | .big, u => be 2 u
  | .little, u => (be 2 u).reverse

/-- Largest length a length field can carry. -/
def maxLen : LengthField → Nat
  | .u8 => 2 ^ 8 - 1
  | .u16 => 2 ^ 16 - 1
  | .u32 => 2 ^ 32 - 1

/-- Number of bytes of a length field. -/
def lenWidth : LengthField → Nat
  | .u8 => 1
  | .u16 => 2
  | .u32 => 4

/-- The bytes of a value on the wire. Signed numbers are two's complement; UTF-8 is the encoding
of Lean's own `String`. -/
def wire : (t : Ty) → t.Val → Bytes
  | .u8, (v : UInt8) => [v]
  | .u16, (v : UInt16) => be 2 v.toNat
  | .u32, (v : UInt32) => be 4 v.toNat
  | .u64, (v : UInt64) => be 8 v.toNat
  | .i8, (v : Int8) => be 1 (v.toInt % 2 ^ 8).toNat
  | .i16, (v : Int16) => be 2 (v.toInt % 2 ^ 16).toNat
  | .i32, (v : Int32) => be 4 (v.toInt % 2 ^ 32).toNat
  | .i64, (v : Int64) => be 8 (v.toInt % 2 ^ 64).toNat
  | .f32, (v : BitVec 32) => be 4 v.toNat
  | .f64, (v : BitVec 64) => be 8 v.toNat
  | .bool, (v : Bool) => [if v then 1 else 0]
  | .bytes, (v : Bytes) => v
  | .utf8, (s : List Char) =>
    [0xef, 0xbb, 0xbf] ++ s.flatMap String.utf8EncodeChar ++ [0x00]
  | .utf16 e, (s : List Char) =>
    unit16 e 0xfeff ++ (s.flatMap utf16Units).flatMap (unit16 e) ++ [0x00, 0x00]
  | .vec t, (vs : List t.Val) => vs.flatMap (wire t)
  | .array _ t, (vs : Arr t.Val _) => vs.1.flatMap (wire t)
  | .unit, _ => []
  | .pair a b, (v : a.Val × b.Val) => wire a v.1 ++ wire b v.2
  | .len l t, (v : t.Val) => be (lenWidth l) (wire t v).length ++ wire t v

/-- Every length-prefixed part of the value is short enough for its length field. -/
def Fits : (t : Ty) → t.Val → Prop
  | .vec t, (vs : List t.Val) => ∀ v ∈ vs, Fits t v
  | .array _ t, (vs : Arr t.Val _) => ∀ v ∈ vs.1, Fits t v
  | .pair a b, (v : a.Val × b.Val) => Fits a v.1 ∧ Fits b v.2
  | .len l t, (v : t.Val) => (wire t v).length ≤ maxLen l ∧ Fits t v
  | _, _ => True

/-- No string inside the value contains the NUL character. -/
def NoNul : (t : Ty) → t.Val → Prop
  | .utf8, (s : List Char) => '\x00' ∉ s
  | .utf16 _, (s : List Char) => '\x00' ∉ s
  | .vec t, (vs : List t.Val) => ∀ v ∈ vs, NoNul t v
  | .array _ t, (vs : Arr t.Val _) => ∀ v ∈ vs.1, NoNul t v
  | .pair a b, (v : a.Val × b.Val) => NoNul a v.1 ∧ NoNul b v.2
  | .len _ t, (v : t.Val) => NoNul t v
  | _, _ => True

/-- Values of this type occupy at least one byte. -/
def NonEmpty : Ty → Bool
  | .bytes => false
  | .vec _ => false
  | .array n t => 0 < n && NonEmpty t
  | .unit => false
  | .pair a b => NonEmpty a || NonEmpty b
  | _ => true

mutual
/-- The end of a value of this type can be told from its bytes alone. -/
def Delimited : Ty → Bool
  | .bytes => false
  | .vec _ => false
  | .array _ t => Delimited t
  | .pair a b => Delimited a && Delimited b
  | .len _ t => WellFormed t
  | _ => true
/-- Greedy members (`Vec`, `Bytes`) are last or length-prefixed; list elements are delimited and
non-empty. -/
def WellFormed : Ty → Bool
  | .bytes => true
  | .vec t => Delimited t && NonEmpty t
  | .pair a b => Delimited a && WellFormed b
  | .array _ t => Delimited t
  | .len _ t => WellFormed t
  | _ => true
end

end Rsomeip.Spec

namespace Rsomeip.Spec

/-- The type contains no little-endian UTF-16 string, or the host is little-endian. -/
def HostOk (host : Endian) : Ty → Bool
  | .utf16 .little => host == .little
  | .vec t => HostOk host t
  | .array _ t => HostOk host t
  | .pair a b => HostOk host a && HostOk host b
  | .len _ t => HostOk host t
  | _ => true

end Rsomeip.Spec
