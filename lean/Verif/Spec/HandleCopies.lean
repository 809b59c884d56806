import Verif.Model.Handles

/-! Definitions used in the statements about copies of a handle store. -/

namespace Willow.Spec

open Willow

variable {α : Type}

/-- The values bound by calls on one of the copies, in order. -/
def boundBy (i : Nat) : List (Nat × HandleOp α) → List α
  | [] => []
  | (j, .bind v) :: ops => if j = i then v :: boundBy i ops else boundBy i ops
  | _ :: ops => boundBy i ops

/-- Values with the numbers from a first one on, as 64-bit numbers. -/
def numberedFrom (first : Nat) (vs : List α) : List (UInt64 × α) := (vs.zipIdx first).map fun x => (UInt64.ofNat x.2, x.1)

end Willow.Spec
