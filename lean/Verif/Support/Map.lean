/-! # Maps: `std::collections::HashMap` as the code uses it -/

namespace Rsomeip

/-- A finite map with at most one entry per key that matters (the first one): models
`std::collections::HashMap` as used in `/repo/rsomeip-proto/src/interface.rs:26` and
`/repo/rsomeip-proto/src/endpoint.rs:13`. Simplified: hashing and iteration order are left out; the
code modelled never iterates. -/
structure Map (κ ν : Type) where
  entries : List (κ × ν)
  deriving Repr, DecidableEq

namespace Map

variable {κ ν : Type} [DecidableEq κ]

/-- `HashMap::default`, the empty map (`/repo/rsomeip-proto/src/endpoint.rs:11`). -/
def empty : Map κ ν := ⟨[]⟩

/-- Look a key up in a list of entries: `HashMap::get` (`/repo/rsomeip-proto/src/interface.rs:189`). -/
def find (k : κ) : List (κ × ν) → Option ν
  | [] => none
  | (k', v) :: es => if k' = k then some v else find k es

/-- `HashMap::get` (used at `/repo/rsomeip-proto/src/interface.rs:189`). -/
def get (m : Map κ ν) (k : κ) : Option ν := find k m.entries

/-- The list without entries for the key: `HashMap::remove` (`/repo/rsomeip-proto/src/interface.rs:173`). -/
def erase (k : κ) (es : List (κ × ν)) : List (κ × ν) := es.filter fun e => e.1 ≠ k

/-- `HashMap::insert`: returns the previous value
(used at `/repo/rsomeip-proto/src/interface.rs:157`). -/
def insert (m : Map κ ν) (k : κ) (v : ν) : Option ν × Map κ ν :=
  (m.get k, ⟨(k, v) :: erase k m.entries⟩)

/-- `HashMap::remove`: returns the removed value
(used at `/repo/rsomeip-proto/src/interface.rs:173`). -/
def remove (m : Map κ ν) (k : κ) : Option ν × Map κ ν := (m.get k, ⟨erase k m.entries⟩)

/-- `HashMap::get_mut` followed by an assignment through the reference
(used at `/repo/rsomeip-proto/src/interface.rs:205`): returns what the reference showed. -/
def modify (m : Map κ ν) (k : κ) (f : ν → ν) : Option ν × Map κ ν :=
  match m.get k with
  | none => (none, m)
  | some v => (some v, ⟨(k, f v) :: erase k m.entries⟩)

end Map

end Rsomeip
