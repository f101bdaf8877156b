import Verif.Rt.SharedMap

/-! # The sequential map that shared maps are compared with -/

namespace Rsomeip.Spec.SharedMap

open Rt.SharedMap

variable {κ ν : Type} [DecidableEq κ]

/-- A call on an ideal map: every call returns what was stored under the key before. -/
def ideal (f : κ → Option ν) : Op κ ν → Option ν × (κ → Option ν)
  | .insert k v => (f k, fun x => if x = k then some v else f x)
  | .get k => (f k, f)
  | .remove k => (f k, fun x => if x = k then none else f x)

/-- The calls, in this order, return these values on an ideal map `f`. -/
def Sequential (f : κ → Option ν) : List (Nat × Op κ ν × Option ν) → Prop
  | [] => True
  | (_, op, r) :: l => r = (ideal f op).1 ∧ Sequential (ideal f op).2 l

/-- `i` comes before `j`. -/
def Before (l : List (Nat × Op κ ν × Option ν)) (i j : Nat) : Prop :=
  ∃ l₁ l₂, l = l₁ ++ l₂ ∧ i ∈ l₁.map Prod.fst ∧ j ∈ l₂.map Prod.fst

/-- A history is linearizable: there is an order of calls such that (1) on an ideal map the calls
in this order return what they returned in the history, (2) each call occurs at most once, and was
made, (3) every call that returned occurs, with the value it returned, and (4) a call that returned
before another one was made comes first. -/
def Linearizable (tr : List (Action κ ν × Obs ν)) : Prop :=
  ∃ l : List (Nat × Op κ ν × Option ν),
    Sequential (fun _ => none) l ∧
    (l.map Prod.fst).Nodup ∧ (∀ i op r, (i, op, r) ∈ l → (.call i op, .none) ∈ tr) ∧
    (∀ i r, (.ret i, .value r) ∈ tr → ∃ op, (i, op, r) ∈ l) ∧
    (∀ t₁ t₂ i j r op o, tr = t₁ ++ t₂ → (.ret i, .value r) ∈ t₁ → (.call j op, o) ∈ t₂ →
      j ∈ l.map Prod.fst → Before l i j)

end Rsomeip.Spec.SharedMap
