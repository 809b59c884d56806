import Verif.Model.Basic

/-! Go maps. -/

namespace Willow

/-- A Go map: pairs with distinct keys. Iteration (`range`) visits them in an unspecified
order; where the code iterates, the model takes the pairs in an arbitrary order as an extra
argument or is shown not to depend on it. -/
abbrev GoMap (κ α : Type) := List (κ × α)

variable {κ α : Type} [DecidableEq κ]

/-- The Go expression `v, found := m[k]`. -/
def GoMap.get : GoMap κ α → κ → Option α
  | [], _ => none
  | (k', v) :: rest, k => if k' = k then some v else get rest k

/-- The Go statement `m[k] = v` (for a map that is not nil). -/
def GoMap.set (m : GoMap κ α) (k : κ) (v : α) : GoMap κ α := (k, v) :: m.filter (fun e => e.1 ≠ k)

/-- The Go statement `delete(m, k)`. -/
def GoMap.delete (m : GoMap κ α) (k : κ) : GoMap κ α := m.filter (fun e => e.1 ≠ k)

end Willow
