import Verif.Model.Store

/-! Sequences of calls on a store. -/

namespace Willow

/-- A call on a store: `Set` (with the time shown by the clock), `IngestEntry`, or closing and
opening the store again. -/
inductive StoreOp where
  | set (now : UInt64) (input : EntryInput) (authorisation : Bytes)
  | ingest (entry : Entry) (token : Bytes)
  | restart
deriving Repr, DecidableEq

/-- One call; `none` is a returned error. Restarting is modelled with keys that keep their
contents (see `restart`). -/
def runOp (env : StoreEnv) (st : StoreState) : StoreOp → Res (Option (List Entry) × StoreState)
  | .set now input authorisation => storeSet env st now input authorisation
  | .ingest e token => ingestEntry env st e token
  | .restart => do
    let st ← restart env (fun kv => kv) st
    .ok (some [], st)

/-- Calls one after the other; errors returned are ignored by the caller. -/
def runOps (env : StoreEnv) (st : StoreState) : List StoreOp → Res StoreState
  | [] => .ok st
  | op :: ops => do
    let (_, st') ← runOp env st op
    runOps env st' ops

end Willow
