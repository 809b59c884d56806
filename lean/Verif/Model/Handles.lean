import Verif.Model.GoMap

/-! Model of `/repo/pkg/wgps/handlestore/handle_store.go`. -/

namespace Willow

/-- `HandleStoreTriple`, `/repo/pkg/wgps/handlestore/handle_store.go:15-19`. Simplification:
the counter, a Go `int`, is unbounded. -/
structure HandleTriple (α : Type) where
  value : α
  askedToFree : Bool
  refCount : Int
deriving Repr, DecidableEq

/-- `HandleStore`, `/repo/pkg/wgps/handlestore/handle_store.go:21-28`. -/
structure HandleStore (α : Type) where
  least : UInt64
  map : GoMap UInt64 (HandleTriple α)
deriving Repr, DecidableEq

variable {α : Type}

/-- A new store, as made at `/repo/pkg/wgps/wgps_messenger.go:554-586`. -/
def HandleStore.empty : HandleStore α := ⟨0, []⟩

/-- `Get`, `/repo/pkg/wgps/handlestore/handle_store.go:33-37`. -/
def HandleStore.get (s : HandleStore α) (handle : UInt64) : Option α := (s.map.get handle).map (·.value)

/-- `Bind`, `/repo/pkg/wgps/handlestore/handle_store.go:40-45`. -/
def HandleStore.bind (s : HandleStore α) (value : α) : UInt64 × HandleStore α :=
  (s.least, ⟨s.least + 1, s.map.set s.least ⟨value, false, 0⟩⟩)

/-- `Update`, `/repo/pkg/wgps/handlestore/handle_store.go:47-54`; `none` is the returned error. -/
def HandleStore.update (s : HandleStore α) (handle : UInt64) (value : α) : Option (HandleStore α) :=
  match s.map.get handle with
  | none => none
  | some t => some { s with map := s.map.set handle { t with value := value } }

/-- `CanUse`, `/repo/pkg/wgps/handlestore/handle_store.go:56-59`. -/
def HandleStore.canUse (s : HandleStore α) (handle : UInt64) : Bool :=
  match s.map.get handle with
  | none => false
  | some t => !t.askedToFree

/-- `Free`, `/repo/pkg/wgps/handlestore/handle_store.go:61-74`. -/
def HandleStore.free (s : HandleStore α) (handle : UInt64) : Option (HandleStore α) :=
  match s.map.get handle with
  | none => none
  | some t =>
    if t.refCount = 0 then some { s with map := s.map.delete handle }
    else some { s with map := s.map.set handle { t with askedToFree := true } }

/-- `IncrementMessageRefCount`, `/repo/pkg/wgps/handlestore/handle_store.go:76-83`. -/
def HandleStore.increment (s : HandleStore α) (handle : UInt64) : Option (HandleStore α) :=
  match s.map.get handle with
  | none => none
  | some t => some { s with map := s.map.set handle { t with refCount := t.refCount + 1 } }

/-- `DecrementMessageRefCount`, `/repo/pkg/wgps/handlestore/handle_store.go:85-96`. -/
def HandleStore.decrement (s : HandleStore α) (handle : UInt64) : Option (HandleStore α) :=
  match s.map.get handle with
  | none => none
  | some t =>
    if t.askedToFree ∧ t.refCount - 1 = 0 then some { s with map := s.map.delete handle }
    else some { s with map := s.map.set handle { t with refCount := t.refCount - 1 } }

/-- A call that changes a handle store. -/
inductive HandleOp (α : Type) where
  | bind (value : α)
  | update (handle : UInt64) (value : α)
  | free (handle : UInt64)
  | increment (handle : UInt64)
  | decrement (handle : UInt64)

/-- One call; after an error the store is as before. -/
def HandleStore.step (s : HandleStore α) : HandleOp α → HandleStore α
  | .bind v => (s.bind v).2
  | .update h v => (s.update h v).getD s
  | .free h => (s.free h).getD s
  | .increment h => (s.increment h).getD s
  | .decrement h => (s.decrement h).getD s

/-- Calls one after the other, from a new store. -/
def HandleStore.run (ops : List (HandleOp α)) : HandleStore α := ops.foldl HandleStore.step .empty

/-- The handles returned by `Bind` (`/repo/pkg/wgps/handlestore/handle_store.go:40-45`) in calls one after the other,
each with the value it was given. -/
def HandleStore.handed (s : HandleStore α) : List (HandleOp α) → List (UInt64 × α)
  | [] => []
  | .bind v :: ops => ((s.bind v).1, v) :: (s.bind v).2.handed ops
  | op :: ops => (s.step op).handed ops

end Willow
