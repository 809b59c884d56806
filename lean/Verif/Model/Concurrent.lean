import Verif.Model.StoreRun

/-! Model of calls of `Set` and `IngestEntry` that are under way at the same time,
`/repo/pkg/data_model/store/store.go:32-176`. The messenger handles messages in goroutines of its own
(`/repo/pkg/wgps/wgps_messenger.go:839-861`), so calls can overlap; `IngestionMutexLock` keeps the
ingests apart, but not the rest of `Set`. -/

namespace Willow

/-- A call of `Set` (with the time shown by the clock) or of `IngestEntry`. -/
inductive StoreCall where
  | set (now : UInt64) (input : EntryInput) (authorisation : Bytes)
  | ingest (entry : Entry) (token : Bytes)
deriving Repr, DecidableEq

/-- How far a call is: not begun; the payload written and the entry authorised
(`/repo/pkg/data_model/store/store.go:53`); the entry ingested (line 57); the references of the
payload counted, none found (line 61); returned. -/
inductive CallStage where
  | start (call : StoreCall)
  | written (entry : Entry) (token : Bytes)
  | ingested (digest : Bytes) (pruned : List Entry)
  | counted (digest : Bytes) (pruned : List Entry)
  | done (result : Option (List Entry))
deriving Repr, DecidableEq

/-- The next step of a call, `/repo/pkg/data_model/store/store.go:32-66`. An ingest is one step, since
it holds the lock. Simplification: the file operations of other calls fall before or after it, not
within (they do fall within it in `Verif/Model/Turns.lean`). A call that finds the lock held waits. -/
def advance (env : StoreEnv) (st : StoreState) : CallStage → Res (CallStage × StoreState)
  | .start (.set now input authorisation) =>
    let (files, _, _) := payloadSet env st.files input.payload
    let st := { st with files := files }
    let entry := setEntry env now input
    match env.authorise entry authorisation with
    | none => .ok (.done none, st)
    | some token => .ok (.written entry token, st)
  | .start (.ingest entry token) =>
    match ingestEntry env st entry token with
    | .ok (r, st) => .ok (.done r, st)
    | .block => .ok (.start (.ingest entry token), st)
    | .err => .err
    | .crash => .crash
  | .written entry token =>
    match ingestEntry env st entry token with
    | .ok (some pruned, st) => .ok (.ingested entry.payloadDigest pruned, st)
    | .ok (none, st) => .ok (.done none, st)
    | .block => .ok (.written entry token, st)
    | .err => .err
    | .crash => .crash
  | .ingested digest pruned =>
    match refCount st.refs digest with
    | .ok count => .ok (if count = 0 then .counted digest pruned else .done (some pruned), st)
    | .err => .ok (.done none, st)
    | .crash => .crash
    | .block => .block
  | .counted digest pruned => .ok (.done (some pruned), { st with files := payloadErase env st.files digest })
  | .done r => .ok (.done r, st)

/-- Calls under way at the same time: each number of the schedule is the call that makes its next
step. -/
def runTogether (env : StoreEnv) : List Nat → List CallStage → StoreState → Res (List CallStage × StoreState)
  | [], stages, st => .ok (stages, st)
  | i :: schedule, stages, st =>
    match stages[i]? with
    | none => runTogether env schedule stages st
    | some stage => do
      let (stage', st') ← advance env st stage
      runTogether env schedule (stages.set i stage') st'

end Willow
