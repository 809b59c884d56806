import Verif.Model.Handles

/-!
# Copies of a handle store

`HandleStore` (`/repo/pkg/wgps/handlestore/handle_store.go:21-28`) is a struct that is passed and kept by value: in the
options and fields at `/repo/pkg/wgps/reconciliation/aoi_intersection_finder.go:15-16` and 23-24,
`/repo/pkg/wgps/reconciliation/announcer.go:17` and 43, `/repo/pkg/wgps/data/data_sender.go:40`,
`/repo/pkg/wgps/pai/pai_finder.go:16-17` and 64-65 and `/repo/pkg/wgps/cap_finder.go:15`. A copy has its own
`LeastUnassignedHandle`, but its `Map` is the same map.
-/

namespace Willow

/-- Copies of a handle store, numbered: the least unassigned handle of each, and the map of all. -/
structure HandleCopies (α : Type) where
  least : Nat → UInt64
  map : GoMap UInt64 (HandleTriple α)

variable {α : Type}

/-- A store and copies made of it. -/
def HandleStore.copies (s : HandleStore α) : HandleCopies α := ⟨fun _ => s.least, s.map⟩

/-- One of the copies, as a store. -/
def HandleCopies.copy (c : HandleCopies α) (i : Nat) : HandleStore α := ⟨c.least i, c.map⟩

/-- A call (see `HandleStore.step`) on one of the copies. -/
def HandleCopies.step (c : HandleCopies α) (i : Nat) (op : HandleOp α) : HandleCopies α :=
  let s := (c.copy i).step op
  ⟨fun j => if j = i then s.least else c.least j, s.map⟩

/-- Calls one after the other, each on the copy with the given number. -/
def HandleCopies.run (c : HandleCopies α) : List (Nat × HandleOp α) → HandleCopies α
  | [] => c
  | (i, op) :: ops => (c.step i op).run ops

/-- The handles returned by `Bind`, each with the copy it was called on and the value it was given. -/
def HandleCopies.handed (c : HandleCopies α) : List (Nat × HandleOp α) → List (Nat × UInt64 × α)
  | [] => []
  | (i, .bind v) :: ops => (i, ((c.copy i).bind v).1, v) :: (c.step i (.bind v)).handed ops
  | (i, op) :: ops => (c.step i op).handed ops

end Willow
