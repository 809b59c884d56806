import Verif.Model.StoreRun

/-! Model of `Set` and `IngestEntry` (`/repo/pkg/data_model/store/store.go:32-243`) with a disk on which writes, or reads, fail. The
rest of the model takes the databases and the file system never to fail. -/

namespace Willow

/-- Which writes fail during a call: of the file of the payload, of that of the token, of the entry to its database, its
deletion there, of a count of references, and the removal of a file; and which reads of the databases: of entries, and of
counts (failing in another way than by finding nothing). A write that fails changes nothing in a database; a file that
cannot be written stays as it is if it could not be opened, and else it was emptied and has the first `partly` bytes
(simplification: all writes and reads of a kind fail, or none). -/
structure Faults where
  payloadFile : Bool := false
  tokenFile : Bool := false
  partly : Option Nat := none
  entrySet : Bool := false
  entryDelete : Bool := false
  refSet : Bool := false
  erase : Bool := false
  entryRead : Bool := false
  refRead : Bool := false
deriving Repr, DecidableEq

/-- What a failing `os.WriteFile` leaves (`/repo/pkg/data_model/payload_kv_driver/filesystem.go:109`): it opens the file with
`O_TRUNC` and then writes. -/
def failedWrite (partly : Option Nat) (env : StoreEnv) (files : KV) (payload : Bytes) : KV :=
  let name := env.fileKey (env.hash payload)
  match partly with
  | none => files
  | some n => if name = [] then files else files.set name (payload.take n)

/-- `PayloadDriver.Set`, `/repo/pkg/data_model/payload_kv_driver/filesystem.go:102-112`; the error of `os.WriteFile` at line
109 is dropped. -/
def payloadSetF (fails : Bool) (partly : Option Nat) (env : StoreEnv) (files : KV) (payload : Bytes) : KV × Bytes × UInt64 :=
  let (written, digest, length) := payloadSet env files payload
  (if fails then failedWrite partly env files payload else written, digest, length)

/-- `PayloadDriver.Erase`, `/repo/pkg/data_model/payload_kv_driver/filesystem.go:88-99`; the callers drop its error. -/
def payloadEraseF (f : Faults) (env : StoreEnv) (files : KV) (digest : Bytes) : KV :=
  if f.erase then files else payloadErase env files digest

/-- `EntryDriver.Insert`, `/repo/pkg/data_model/entry_driver/entry_driver.go:94-117`: the error of the database is returned
at line 110. -/
def entryInsertF (f : Faults) (env : StoreEnv) (st : StoreState) (e : Entry) (authDigest : Bytes) : Bool × StoreState :=
  if f.entrySet then (false, st) else entryInsert env st e authDigest

/-- `EntryDriver.Delete`, `/repo/pkg/data_model/entry_driver/entry_driver.go:119-133`: the error of the database is returned
at line 127, before the tree is changed, and dropped by the callers. -/
def entryDeleteF (f : Faults) (env : StoreEnv) (st : StoreState) (e : Entry) : StoreState :=
  if f.entryDelete then st else entryDelete env st e

/-- `EntryDriver.Get`, `/repo/pkg/data_model/entry_driver/entry_driver.go:56-92`: the error of the database is returned. -/
def entryGetF (f : Faults) (env : StoreEnv) (st : StoreState) (subspace : Bytes) (path : Path) : Res GetRes :=
  if f.entryRead then do
    let entryExists ← storageGet env.lib env.p st.kd subspace path
    .ok (if entryExists.isNone then .missing else .error)
  else entryGet env st subspace path

/-- The loop of `PrunableEntries`, `/repo/pkg/data_model/store/store.go:257-268`. -/
def prunableLoopF (f : Faults) (env : StoreEnv) (st : StoreState) (time : UInt64) :
    List KdKey → Res (Option (List (Entry × Bytes)))
  | [] => .ok (some [])
  | k :: rest =>
    if k.pos.time < time then do
      let r ← entryGetF f env st k.pos.subspace k.pos.path
      match r with
      | .found e a => do
        let more ← prunableLoopF f env st time rest
        .ok (more.map ((e, a) :: ·))
      | _ => .ok none
    else prunableLoopF f env st time rest

/-- `PrunableEntries`, `/repo/pkg/data_model/store/store.go:245-270`. -/
def prunableEntriesF (f : Faults) (env : StoreEnv) (st : StoreState) (pos : Position) :
    Res (Option (List (Entry × Bytes))) := do
  let candidates ← prefixedBy env.lib env.p st.kd pos.subspace pos.path
  prunableLoopF f env st pos.time candidates

/-- `Increment`, `/repo/pkg/data_model/payload_kv_driver/payload_ref_counter.go:28-42`; the error of the write at line 40
is dropped, that of the read is returned at line 33 and dropped by the caller
(`/repo/pkg/data_model/store/store.go:209`). -/
def refIncrementF (f : Faults) (refs : KV) (digest : Bytes) : Res (UInt64 × KV) :=
  if f.refRead then .ok (0, refs)
  else match refIncrement refs digest with
  | .ok (count, written) => .ok (count, if f.refSet then refs else written)
  | r => r

/-- `Decrement`, `/repo/pkg/data_model/payload_kv_driver/payload_ref_counter.go:50-62`; the error of the write at line 60
is dropped, that of the read is returned at line 55. -/
def refDecrementF (f : Faults) (refs : KV) (digest : Bytes) : Res (UInt64 × KV) :=
  if f.refRead then .err
  else match refDecrement refs digest with
  | .ok (count, written) => .ok (count, if f.refSet then refs else written)
  | r => r

/-- `Count`, `/repo/pkg/data_model/payload_kv_driver/payload_ref_counter.go:68-78`. -/
def refCountF (f : Faults) (refs : KV) (digest : Bytes) : Res UInt64 :=
  if f.refRead then .err else refCount refs digest

/-- The deletion loop of `InsertEntry`, `/repo/pkg/data_model/store/store.go:224-240`. -/
def pruneLoopF (f : Faults) (env : StoreEnv) : List (Entry × Bytes) → StoreState → Res (Option (List Entry) × StoreState)
  | [], st => .ok (some [], st)
  | (e, _) :: rest, st =>
    let st := entryDeleteF f env st e
    match refDecrementF f st.refs e.payloadDigest with
    | .ok (count, refs) =>
      let st := { st with refs := refs }
      let st := if count = 0 then { st with files := payloadEraseF f env st.files e.payloadDigest } else st
      match pruneLoopF f env rest st with
      | .ok (some pruned, st) => .ok (some (e :: pruned), st)
      | r => r
    | .err => .ok (none, st)
    | .crash => .crash
    | .block => .block

/-- `InsertEntry`, `/repo/pkg/data_model/store/store.go:178-243`. -/
def insertEntryF (f : Faults) (env : StoreEnv) (st : StoreState) (e : Entry) (authToken : Bytes) :
    Res (Option (List Entry) × StoreState) :=
  let (files, authDigest, _) := payloadSetF f.tokenFile f.partly env st.files (env.tokenEncode authToken)
  match entryInsertF f env { st with files := files } e authDigest with
  | (false, st) => .ok (none, st)
  | (true, st) =>
    match refIncrementF f st.refs e.payloadDigest with
    | .ok (_, refs) =>
      let st := { st with refs := refs, kd := corruptKey env.p st.kd e.position }
      match prunableEntriesF f env st e.position with
      | .ok (some prunable) => pruneLoopF f env prunable st
      | .ok none => .ok (none, st)
      | .err => .err
      | .crash => .crash
      | .block => .block
    | .err => .err
    | .crash => .crash
    | .block => .block

/-- `IngestEntry` from line 132 to 145 of `/repo/pkg/data_model/store/store.go`. -/
def replaceOtherF (f : Faults) (env : StoreEnv) (st : StoreState) (other : Entry) (otherAuth : Bytes) (e : Entry) :
    Res (Option Unit × StoreState) :=
  let st := entryDeleteF f env st other
  let st := { st with files := payloadEraseF f env st.files otherAuth }
  if other.payloadDigest ≠ e.payloadDigest then
    match refDecrementF f st.refs other.payloadDigest with
    | .ok (count, refs) =>
      let st := { st with refs := refs }
      .ok (some (), if count = 0 then { st with files := payloadEraseF f env st.files other.payloadDigest } else st)
    | .err => .ok (none, st)
    | .crash => .crash
    | .block => .block
  else .ok (some (), st)

/-- `IngestEntry` from line 151 to 175 of `/repo/pkg/data_model/store/store.go`. -/
def finishIngestF (f : Faults) (env : StoreEnv) (st : StoreState) (e : Entry) (authorisation : Bytes) :
    Res (Option (List Entry) × StoreState) :=
  match insertEntryF f env st e authorisation with
  | .ok (some pruned, st) => .ok (some pruned, { st with locked := false })
  | r => r

/-- `IngestEntry`, `/repo/pkg/data_model/store/store.go:68-176`. -/
def ingestEntryF (f : Faults) (env : StoreEnv) (st : StoreState) (e : Entry) (authorisation : Bytes) :
    Res (Option (List Entry) × StoreState) :=
  if st.locked then .block
  else
    let held := { st with locked := true }
    if !env.nsEqual env.namespaceId e.namespaceId then .ok (none, st)
    else if !env.isAuthorised e authorisation then .ok (none, st)
    else
      match driverPrefixesOf env.lib env.p st.kd e.subspaceId e.path with
      | .ok prefixes =>
        if prefixes.any (fun k => k.pos.time ≥ e.timestamp) then .ok (none, st)
        else
          match entryGetF f env held e.subspaceId e.path with
          | .ok .error => .ok (none, held)
          | .ok .missing => finishIngestF f env held e authorisation
          | .ok (.found other otherAuth) =>
            if orderPath other.path e.path = .eq then
              if other.timestamp ≥ e.timestamp then .ok (none, st)
              else
                match replaceOtherF f env held other otherAuth e with
                | .ok (some _, st) => finishIngestF f env st e authorisation
                | .ok (none, st) => .ok (none, st)
                | .err => .err
                | .crash => .crash
                | .block => .block
            else finishIngestF f env held e authorisation
          | .err => .err
          | .crash => .crash
          | .block => .block
      | .err => .err
      | .crash => .crash
      | .block => .block

/-- `Set`, `/repo/pkg/data_model/store/store.go:32-66`. -/
def storeSetF (f : Faults) (env : StoreEnv) (st : StoreState) (now : UInt64) (input : EntryInput) (authorisation : Bytes) :
    Res (Option (List Entry) × StoreState) :=
  let (files, digest, _) := payloadSetF f.payloadFile f.partly env st.files input.payload
  let st := { st with files := files }
  let entry := setEntry env now input
  match env.authorise entry authorisation with
  | none => .ok (none, st)
  | some authToken =>
    match ingestEntryF f env st entry authToken with
    | .ok (some pruned, st) =>
      match refCountF f st.refs digest with
      | .ok count =>
        .ok (some pruned, if count = 0 then { st with files := payloadEraseF f env st.files digest } else st)
      | .err => .ok (none, st)
      | .crash => .crash
      | .block => .block
    | r => r

/-- A call during which writes fail. -/
def runOpF (f : Faults) (env : StoreEnv) (st : StoreState) : StoreOp → Res (Option (List Entry) × StoreState)
  | .set now input authorisation => storeSetF f env st now input authorisation
  | .ingest e token => ingestEntryF f env st e token
  | .restart => runOp env st .restart

end Willow
