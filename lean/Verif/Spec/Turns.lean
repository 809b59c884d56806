import Verif.Spec.Concurrent
import Verif.Model.Turns

/-! Specification for calls that take turns after every change. -/

namespace Willow.Spec

open Willow

/-- The calls of `order`, made one after the other in this order, account for the entries in the store whenever nobody is within an ingest, and for
what the calls that are over have returned; calls that have not begun are not among them. -/
def ExplainsTurns (env : StoreEnv) (st0 : StoreState) (calls : List StoreCall) (stages : List TurnStage) (st : StoreState)
    (order : List Nat) : Prop :=
  order.Nodup ∧ (∀ i ∈ order, i < calls.length) ∧
  (∃ rs s, oneByOne env st0 (order.filterMap fun i => calls[i]?.map asOp) = .ok (rs, s) ∧
    ((∀ x ∈ stages, ∀ ws kd l r c, x ≠ .ingesting ws kd l r c) → Alike s st) ∧
    ∀ (i : Nat) (r : Option (List Entry)), stages[i]? = some (.done r) → ∃ k : Nat, order[k]? = some i ∧ rs[k]? = some r) ∧
  ∀ (i : Nat) (c : StoreCall), stages[i]? = some (.start c) → i ∉ order

end Willow.Spec
