import Verif.Bytes.Universe

/-!
# How much memory a value takes

`h` is what a `Vec`, `String` or `Bytes` takes besides its contents (a pointer, a length and so on).
Unused capacity is not counted.
-/

namespace Rsomeip.Spec

/-- Bytes taken by a string: Rust strings are UTF-8. -/
def text (s : List Char) : Nat := (s.map Char.utf8Size).sum

/-- Bytes taken by a value. -/
def memory (h : Nat) : (t : Ty) → t.Val → Nat
  | .u8, _ | .i8, _ | .bool, _ => 1
  | .u16, _ | .i16, _ => 2
  | .u32, _ | .i32, _ | .f32, _ => 4
  | .u64, _ | .i64, _ | .f64, _ => 8
  | .bytes, v => h + List.length (α := UInt8) v
  | .utf8, s => h + text s
  | .utf16 _, s => h + text s
  | .vec t, vs => h + (List.map (memory h t) vs).sum
  | .array n t, vs => (List.map (memory h t) (Subtype.val (p := fun l => l.length = n) vs)).sum
  | .unit, _ => 0
  | .pair a b, v => memory h a v.1 + memory h b v.2
  | .len _ t, v => memory h t v

/-- Bytes that every value of the type takes, however little data it is made from. -/
def fixedPart (h : Nat) : Ty → Nat
  | .u8 | .i8 | .bool => 1
  | .u16 | .i16 => 2
  | .u32 | .i32 | .f32 => 4
  | .u64 | .i64 | .f64 => 8
  | .bytes | .utf8 | .utf16 _ | .vec _ => h
  | .array n t => n * fixedPart h t
  | .unit => 0
  | .pair a b => fixedPart h a + fixedPart h b
  | .len _ t => fixedPart h t

/-- Bytes by which a value of the type may grow with each byte of data. A `Vec` gains at most one
element with a byte; two bytes of UTF-16 may become three of UTF-8. -/
def growth (h : Nat) : Ty → Nat
  | .bytes => 1
  | .utf8 | .utf16 _ => 2
  | .vec t => fixedPart h t + growth h t
  | .array _ t => growth h t
  | .pair a b => max (growth h a) (growth h b)
  | .len _ t => growth h t
  | _ => 0

end Rsomeip.Spec
