import Verif.Model.Handles

/-! Independent specification of which handle a value gets: the values bound, in order, numbered. -/

namespace Willow.Spec

open Willow

variable {α : Type}

/-- The values bound by calls, in order. -/
def boundValues : List (HandleOp α) → List α
  | [] => []
  | .bind v :: ops => v :: boundValues ops
  | _ :: ops => boundValues ops

/-- Values with their numbers, as 64-bit numbers. -/
def numbered (vs : List α) : List (UInt64 × α) := vs.zipIdx.map fun x => (UInt64.ofNat x.2, x.1)

/-- The handle that a call is about, if it is not one that binds. -/
def about : HandleOp α → Option UInt64
  | .bind _ => none
  | .update h _ => some h
  | .free h => some h
  | .increment h => some h
  | .decrement h => some h

end Willow.Spec
