import Verif.Spec.Wire

/-!
# Shape predicates on types

Decidable conditions on a type used to state when decoding fails, terminates or consumes
everything.
-/

namespace Rsomeip.Spec

/-- Width of the ten numeric types. -/
def numWidth : Ty → Option Nat
  | .u8 | .i8 => some 1
  | .u16 | .i16 => some 2
  | .u32 | .i32 | .f32 => some 4
  | .u64 | .i64 | .f64 => some 8
  | _ => none

/-- Number of bytes of a type made of numbers, booleans and tuples of these. -/
def fixedSize : Ty → Option Nat
  | .bool => some 1
  | .unit => some 0
  | .pair a b => do
    let n ← fixedSize a
    let m ← fixedSize b
    pure (n + m)
  | t => numWidth t

/-- The last member is a `Vec` or `Bytes`, so a successful read leaves nothing. -/
def Greedy : Ty → Bool
  | .bytes => true
  | .vec _ => true
  | .pair _ b => Greedy b
  | _ => false

mutual
/-- Reading from a non-empty buffer always consumes something, even on error. -/
def Eats : Ty → Bool
  | .u8 | .i8 | .bool | .bytes => true
  | .vec t => Eats t
  | .array n t => 0 < n && Eats t
  | .pair a b => Eats a || (!Progress a && Eats b)
  | .len .u8 _ => true
  | _ => false
/-- Reading successfully from a non-empty buffer always consumes something. -/
def Progress : Ty → Bool
  | .array n t => 0 < n && Eats t
  | .unit => false
  | .pair a b => Progress a || Progress b
  | _ => true
end

/-- All element types of `Vec`s inside the type make progress. -/
def Terminating : Ty → Bool
  | .vec t => Progress t && Terminating t
  | .array _ t => Terminating t
  | .pair a b => Terminating a && Terminating b
  | .len _ t => Terminating t
  | _ => true

end Rsomeip.Spec
