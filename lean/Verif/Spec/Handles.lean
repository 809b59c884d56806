import Verif.Model.Handles

/-! Independent specification of the life of a handle, in terms of the history of calls (the
latest call first). -/

namespace Willow.Spec

open Willow

variable {α : Type}

/-- How many values have been bound. -/
def bound : List (HandleOp α) → Nat
  | [] => 0
  | .bind _ :: past => bound past + 1
  | _ :: past => bound past

/-- Handle number `n` has been asked to be freed since it was bound. -/
def asked (n : Nat) : List (HandleOp α) → Bool
  | [] => false
  | .free h :: past => (h.toNat == n && decide (n < bound past)) || asked n past
  | _ :: past => asked n past

/-- The number of unprocessed messages that refer to handle number `n`: registered since it was
bound, less those processed. -/
def outstanding (n : Nat) : List (HandleOp α) → Int
  | [] => 0
  | .increment h :: past => outstanding n past + if h.toNat = n ∧ n < bound past then 1 else 0
  | .decrement h :: past => outstanding n past - if h.toNat = n ∧ n < bound past then 1 else 0
  | _ :: past => outstanding n past

/-- At some time in the past the handle had been asked to be freed and no unprocessed message
referred to it. -/
def gone (n : Nat) : List (HandleOp α) → Bool
  | [] => false
  | op :: past => gone n past || (asked n (op :: past) && outstanding n (op :: past) == 0)

/-- The value given to handle number `n` last. -/
def lastValue (n : Nat) : List (HandleOp α) → Option α
  | [] => none
  | .bind v :: past => if bound past = n then some v else lastValue n past
  | .update h v :: past => if h.toNat = n ∧ n < bound past then some v else lastValue n past
  | _ :: past => lastValue n past

/-- No message is processed that was not registered before. -/
def wellBehaved : List (HandleOp α) → Prop
  | [] => True
  | .decrement h :: past => (h.toNat < bound past → gone h.toNat past = false → 0 < outstanding h.toNat past) ∧ wellBehaved past
  | _ :: past => wellBehaved past

end Willow.Spec
