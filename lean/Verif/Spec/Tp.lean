import Verif.Proto.Tp
import Verif.Spec.Wire

/-! # Specification of segmentation -/

namespace Rsomeip.Spec

open Proto

/-- The caller's loop `while let Some(s) = h.split(limit) { emit(s) }; emit(h)` emits these
segments. -/
inductive Splits (limit : Nat) : TpHeader → List TpHeader → Prop where
  | last {h h' : TpHeader} : h.split limit = (none, h') → Splits limit h [h']
  | more {h s h' : TpHeader} {rest : List TpHeader} :
      h.split limit = (some s, h') → Splits limit h' rest → Splits limit h (s :: rest)

/-- The caller's loop `for s in segments { h.join(s) }`, stopping at the first error. -/
def joinAll (h : TpHeader) : List TpHeader → Except TpError TpHeader
  | [] => .ok h
  | s :: rest =>
    match h.join s with
    | (.ok (), h') => joinAll h' rest
    | (.error e, _) => .error e

/-- Bytes of a segment on the wire: 28 bits of offset, three reserved bits, the flag and the body. -/
def tpBytes (offset : Nat) (more : Bool) (body : Bytes) : Bytes :=
  be 4 (offset * 16 + more.toNat) ++ body

/-- Concatenation of the bodies of the segments. -/
def contents (segs : List TpHeader) : Bytes := segs.flatMap TpHeader.body

end Rsomeip.Spec
