import Verif.Model.Emitters

/-! Definitions used in the statements about goroutines that send queues. -/

namespace Willow.Spec

open Willow

/-- The elements queued, in order. -/
def gives {α : Type} : List (EmitAct α) → List α
  | [] => []
  | .give x :: rest => x :: gives rest
  | _ :: rest => gives rest

/-- The elements put, in order. -/
def puts {α : Type} : List (ForwardAct α) → List α
  | [] => []
  | .put x :: rest => x :: puts rest
  | _ :: rest => puts rest

/-- The namespace with which a handle of one side was last added. -/
def lastAdded (handle : UInt64) (ours : Bool) : List (UInt64 × Bytes × Bool) → Option Bytes
  | [] => none
  | (h, n, o) :: later =>
    match lastAdded handle ours later with
    | some x => some x
    | none => if h = handle ∧ o = ours then some n else none

end Willow.Spec
