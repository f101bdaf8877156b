import Verif.Spec.Shape

/-! # Shape predicates for encoding what was decoded, and for truncated data -/

namespace Rsomeip.Spec

/-- Made of numbers, byte strings, tuples and `Vec`s of these. -/
def Exact : Ty → Bool
  | .bool | .utf8 | .utf16 _ | .array _ _ | .len _ _ => false
  | .vec t => Exact t
  | .pair a b => Exact a && Exact b
  | _ => true

/-- There are no arrays and no strings in it. -/
def Tight : Ty → Bool
  | .utf8 | .utf16 _ | .array _ _ => false
  | .vec t => Tight t
  | .pair a b => Tight a && Tight b
  | .len _ t => Tight t
  | _ => true

/-- There are no length fields in it. -/
def NoLen : Ty → Bool
  | .len _ _ => false
  | .vec t => NoLen t
  | .array _ t => NoLen t
  | .pair a b => NoLen a && NoLen b
  | _ => true

/-- No arrays and strings in length-prefixed members, and no length-prefixed members in arrays. -/
def Resendable : Ty → Bool
  | .len _ t => Tight t
  | .array _ t => NoLen t
  | .vec t => Resendable t
  | .pair a b => Resendable a && Resendable b
  | _ => true

/-- No arrays, and nothing whose end is the end of the data. -/
def Strict : Ty → Bool
  | .bytes | .vec _ | .array _ _ => false
  | .pair a b => Strict a && Strict b
  | .len _ t => Strict t
  | _ => true

end Rsomeip.Spec
