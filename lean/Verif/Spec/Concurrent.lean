import Verif.Model.Concurrent

/-! Specification for calls under way at the same time. -/

namespace Willow.Spec

open Willow

/-- The call as one of a sequence. -/
def asOp : StoreCall → StoreOp
  | .set now input authorisation => .set now input authorisation
  | .ingest e token => .ingest e token

/-- Calls one after the other, with what each returns. -/
def oneByOne (env : StoreEnv) (st : StoreState) : List StoreOp → Res (List (Option (List Entry)) × StoreState)
  | [] => .ok ([], st)
  | op :: ops => do
    let (r, st') ← runOp env st op
    let (rs, st'') ← oneByOne env st' ops
    .ok (r :: rs, st'')

/-- Two states with the same database, tree, reference counts and lock. -/
def Alike (a b : StoreState) : Prop := a.kv = b.kv ∧ a.kd = b.kd ∧ a.refs = b.refs ∧ a.locked = b.locked

/-- The calls of `order`, made one after the other in this order, account for the entries in the
store and for what the calls that are over have returned; calls that have not begun are not among
them. -/
def Explains (env : StoreEnv) (st0 : StoreState) (calls : List StoreCall) (stages : List CallStage) (st : StoreState)
    (order : List Nat) : Prop :=
  order.Nodup ∧ (∀ i ∈ order, i < calls.length) ∧
  (∃ rs s, oneByOne env st0 (order.filterMap fun i => calls[i]?.map asOp) = .ok (rs, s) ∧ Alike s st ∧
    ∀ (i : Nat) (r : Option (List Entry)), stages[i]? = some (.done r) → ∃ k : Nat, order[k]? = some i ∧ rs[k]? = some r) ∧
  ∀ (i : Nat) (c : StoreCall), stages[i]? = some (.start c) → i ∉ order

end Willow.Spec

namespace Willow.Spec

open Willow

/-- The digest of the payload of a call (of an entry for `IngestEntry`). -/
def digestOf (env : StoreEnv) : StoreCall → Bytes
  | .set _ input _ => env.hash input.payload
  | .ingest e _ => e.payloadDigest

/-- The call is a write. -/
def IsSet (c : StoreCall) : Prop := ∃ now input authorisation, c = .set now input authorisation

end Willow.Spec
