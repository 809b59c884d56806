import Verif.Model.Concurrent
import Verif.Model.Crash

/-! Model of calls of `Set` and `IngestEntry` under way at the same time (`/repo/pkg/data_model/store/store.go:32-176`) that take turns after
every single change of what is on disk: within the writing of a file, and within an ingest. In `Verif/Model/Concurrent.lean` these are one step. -/

namespace Willow

/-- How far a call is: not begun; the payload being written, with the changes of the disk still to come (`/repo/pkg/data_model/store/store.go:40`);
waiting for the lock (line 72); within an ingest, with the changes still to come, the tree and lock at its end, what it will return, and for
`Set` the digest to count; the entry ingested (line 57); no references found, the payload being erased (line 63); returned. -/
inductive TurnStage where
  | start (call : StoreCall)
  | writing (ws : List DiskWrite) (entry : Entry) (token : Option Bytes)
  | waiting (entry : Entry) (token : Bytes) (isSet : Bool)
  | ingesting (ws : List DiskWrite) (kd : List KdKey) (locked : Bool) (result : Option (List Entry)) (counts : Option Bytes)
  | ingested (digest : Bytes) (pruned : List Entry)
  | erasing (ws : List DiskWrite) (pruned : List Entry)
  | done (result : Option (List Entry))
deriving Repr, DecidableEq

/-- The next turn of a call, `/repo/pkg/data_model/store/store.go:32-66`: at most one change of what is on disk. What an ingest
changes is settled when it takes the lock, since the others change no entries and no counts while it is held. Simplification: the tree, which
is in memory, changes at the end of the ingest. -/
def turn (env : StoreEnv) (st : StoreState) : TurnStage → Res (TurnStage × StoreState)
  | .start (.set now input authorisation) =>
    .ok (.writing (payloadWrites env input.payload) (setEntry env now input) (env.authorise (setEntry env now input) authorisation), st)
  | .start (.ingest entry token) => .ok (.waiting entry token false, st)
  | .writing (w :: ws) entry token => .ok (.writing ws entry token, applyWrite st w)
  | .writing [] _ none => .ok (.done none, st)
  | .writing [] entry (some token) => .ok (.waiting entry token true, st)
  | .waiting entry token isSet =>
    match ingestEntry env st entry token with
    | .ok (r, st') =>
      .ok (.ingesting (ingestWrites env st entry token) st'.kd st'.locked r (if isSet then some entry.payloadDigest else none),
        { st with locked := true })
    | .block => .ok (.waiting entry token isSet, st)
    | .err => .err
    | .crash => .crash
  | .ingesting (w :: ws) kd locked result counts => .ok (.ingesting ws kd locked result counts, applyWrite st w)
  | .ingesting [] kd locked (some pruned) (some digest) => .ok (.ingested digest pruned, { st with kd := kd, locked := locked })
  | .ingesting [] kd locked result _ => .ok (.done result, { st with kd := kd, locked := locked })
  | .ingested digest pruned =>
    match refCount st.refs digest with
    | .ok count => .ok (if count = 0 then .erasing (eraseWrites env digest) pruned else .done (some pruned), st)
    | .err => .ok (.done none, st)
    | .crash => .crash
    | .block => .block
  | .erasing (w :: ws) pruned => .ok (.erasing ws pruned, applyWrite st w)
  | .erasing [] pruned => .ok (.done (some pruned), st)
  | .done r => .ok (.done r, st)

/-- Calls under way at the same time: each number of the schedule is the call whose turn it is. -/
def runTurns (env : StoreEnv) : List Nat → List TurnStage → StoreState → Res (List TurnStage × StoreState)
  | [], stages, st => .ok (stages, st)
  | i :: schedule, stages, st =>
    match stages[i]? with
    | none => runTurns env schedule stages st
    | some stage => do
      let (stage', st') ← turn env st stage
      runTurns env schedule (stages.set i stage') st'

end Willow
