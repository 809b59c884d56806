import Verif.Model.StoreRun

/-! Model of a process that ends in the middle of `Set` or `IngestEntry`
(`/repo/pkg/data_model/store/store.go:32-176`) and of opening the store again. A panic in any
goroutine, and every `log.Fatal`, ends the process. The databases are written with `pebble.Sync`
(`/repo/pkg/data_model/kv_driver/kv_driver_pebble.go:79-93`), so what is on disk then is what the first
few writes of the call have made of it. -/

namespace Willow

/-- A single change of what is on disk. -/
inductive DiskWrite where
  | file (name content : Bytes)
  | remove (name : Bytes)
  | entrySet (key value : Bytes)
  | entryDelete (key : Bytes)
  | refSet (digest value : Bytes)
deriving Repr, DecidableEq

/-- What a change does; the tree and the lock are in memory. -/
def applyWrite (st : StoreState) : DiskWrite → StoreState
  | .file name content => { st with files := st.files.set name content }
  | .remove name => { st with files := st.files.delete name }
  | .entrySet key value => { st with kv := st.kv.set key value }
  | .entryDelete key => { st with kv := st.kv.delete key }
  | .refSet digest value => { st with refs := st.refs.set digest value }

/-- Several changes, one after the other. -/
def applyWrites (st : StoreState) (ws : List DiskWrite) : StoreState := ws.foldl applyWrite st

/-- The changes made by `PayloadDriver.Set`,
`/repo/pkg/data_model/payload_kv_driver/filesystem.go:102-112`: `os.WriteFile` truncates the file when it
opens it and then writes the contents. A process that ends when only a part of the contents is written is in `crashWithin`. -/
def payloadWrites (env : StoreEnv) (payload : Bytes) : List DiskWrite :=
  let name := env.fileKey (env.hash payload)
  if name = [] then [] else [.file name [], .file name payload]

/-- The change made by `PayloadDriver.Erase`,
`/repo/pkg/data_model/payload_kv_driver/filesystem.go:88-99`. -/
def eraseWrites (env : StoreEnv) (digest : Bytes) : List DiskWrite :=
  let name := env.fileKey digest
  if name = [] then [] else [.remove name]

/-- The changes made by the deletion loop of `InsertEntry`,
`/repo/pkg/data_model/store/store.go:224-240`. -/
def pruneWrites (env : StoreEnv) : List (Entry × Bytes) → KV → List DiskWrite
  | [], _ => []
  | (e, _) :: rest, refs =>
    .entryDelete (encodeKey env.p e.position) ::
      match refDecrement refs e.payloadDigest with
      | .ok (count, refs') =>
        .refSet e.payloadDigest (putU64 count.toNat) ::
          ((if count = 0 then eraseWrites env e.payloadDigest else []) ++ pruneWrites env rest refs')
      | _ => []

/-- The changes made by `InsertEntry`, `/repo/pkg/data_model/store/store.go:178-243`. -/
def insertWrites (env : StoreEnv) (st : StoreState) (e : Entry) (authToken : Bytes) : List DiskWrite :=
  let (files, authDigest, _) := payloadSet env st.files (env.tokenEncode authToken)
  let value := encodeValues { payloadLength := e.payloadLength, payloadDigest := e.payloadDigest, authDigest := authDigest }
  payloadWrites env (env.tokenEncode authToken) ++ .entrySet (encodeKey env.p e.position) value ::
    match entryInsert env { st with files := files } e authDigest with
    | (false, _) => []
    | (true, st) =>
      match refIncrement st.refs e.payloadDigest with
      | .ok (count, refs) =>
        .refSet e.payloadDigest (putU64 count.toNat) ::
          match prunableEntries env { st with refs := refs, kd := corruptKey env.p st.kd e.position } e.position with
          | .ok (some prunable) => pruneWrites env prunable refs
          | _ => []
      | _ => []

/-- The changes made when the entry at the same path is removed,
`/repo/pkg/data_model/store/store.go:130-144`. -/
def replaceWrites (env : StoreEnv) (st : StoreState) (other : Entry) (otherAuth : Bytes) (e : Entry) : List DiskWrite :=
  .entryDelete (encodeKey env.p other.position) :: (eraseWrites env otherAuth ++
    if other.payloadDigest ≠ e.payloadDigest then
      match refDecrement st.refs other.payloadDigest with
      | .ok (count, _) =>
        .refSet other.payloadDigest (putU64 count.toNat) ::
          if count = 0 then eraseWrites env other.payloadDigest else []
      | _ => []
    else [])

/-- The changes made by `IngestEntry`, `/repo/pkg/data_model/store/store.go:68-176`, in the order in
which they are made. -/
def ingestWrites (env : StoreEnv) (st : StoreState) (e : Entry) (authorisation : Bytes) : List DiskWrite :=
  if st.locked then []
  else
    let held := { st with locked := true }
    if !env.nsEqual env.namespaceId e.namespaceId then []
    else if !env.isAuthorised e authorisation then []
    else
      match driverPrefixesOf env.lib env.p st.kd e.subspaceId e.path with
      | .ok prefixes =>
        if prefixes.any (fun k => k.pos.time ≥ e.timestamp) then []
        else
          match entryGet env held e.subspaceId e.path with
          | .ok .missing => insertWrites env held e authorisation
          | .ok (.found other otherAuth) =>
            if orderPath other.path e.path = .eq then
              if other.timestamp ≥ e.timestamp then []
              else
                replaceWrites env held other otherAuth e ++
                match replaceOther env held other otherAuth e with
                | .ok (some _, st) => insertWrites env st e authorisation
                | _ => []
            else insertWrites env held e authorisation
          | _ => []
      | _ => []

/-- The changes made by `Set`, `/repo/pkg/data_model/store/store.go:32-66`, in the order in which they are
made. -/
def setWrites (env : StoreEnv) (st : StoreState) (now : UInt64) (input : EntryInput) (authorisation : Bytes) :
    List DiskWrite :=
  let (files, digest, _) := payloadSet env st.files input.payload
  let entry := setEntry env now input
  payloadWrites env input.payload ++
    match env.authorise entry authorisation with
    | none => []
    | some authToken =>
      ingestWrites env { st with files := files } entry authToken ++
        match ingestEntry env { st with files := files } entry authToken with
        | .ok (some _, st) =>
          match refCount st.refs digest with
          | .ok count => if count = 0 then eraseWrites env digest else []
          | _ => []
        | _ => []

/-- The changes made by a call. Opening the store again changes nothing on disk. -/
def opWrites (env : StoreEnv) (st : StoreState) : StoreOp → List DiskWrite
  | .set now input authorisation => setWrites env st now input authorisation
  | .ingest e token => ingestWrites env st e token
  | .restart => []

/-- The process ends when a call has made `n` changes, and the store is opened again
(`/repo/PinaGoladaStore/StoreDriver.go:18-88`). -/
def crashAfter (env : StoreEnv) (st : StoreState) (op : StoreOp) (n : Nat) : Res StoreState :=
  restart env (fun kv => kv) (applyWrites st ((opWrites env st op).take n))

/-- A change of which the first `k` bytes are made: only the contents of a file can be written in part. -/
def partOf (k : Nat) : DiskWrite → List DiskWrite
  | .file name content => [.file name (content.take k)]
  | _ => []

/-- The process ends when a call has made `n` changes and, if the next one writes a file, `k` bytes of it
(`os.WriteFile`, `/repo/pkg/data_model/payload_kv_driver/filesystem.go:109`), and the store is opened again. -/
def crashWithin (env : StoreEnv) (st : StoreState) (op : StoreOp) (n k : Nat) : Res StoreState :=
  restart env (fun kv => kv) (applyWrites st ((opWrites env st op).take n ++ ((opWrites env st op)[n]?.toList.flatMap (partOf k))))

end Willow
