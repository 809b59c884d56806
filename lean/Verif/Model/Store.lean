import Verif.Model.Kv

/-! Model of `/repo/pkg/data_model/payload_kv_driver/filesystem.go`,
`/repo/pkg/data_model/entry_driver/entry_driver.go`, `/repo/pkg/data_model/store/store.go` and
of opening a store (`/repo/PinaGoladaStore/StoreDriver.go`). -/

namespace Willow

/-- What a store is configured with: the path limits, the k-d tree library, and the schemes of
`/repo/pkg/data_model/datamodeltypes/storetypes.go` that the store calls. `fileKey` is
`GetKey` (`filesystem.go:23-26`). -/
structure StoreEnv where
  p : PathParams
  lib : KdLib
  hash : Bytes → Bytes
  fileKey : Bytes → Bytes
  nsEqual : Bytes → Bytes → Bool
  authorise : Entry → Bytes → Option Bytes
  isAuthorised : Entry → Bytes → Bool
  tokenEncode : Bytes → Bytes
  namespaceId : Bytes

/-- State of a store: the entry database, the in-memory tree, the reference count database,
the payload files (by file name), the partial payload files, and whether
`IngestionMutexLock` is held. -/
structure StoreState where
  kv : KV
  kd : List KdKey
  refs : KV
  files : KV
  partials : KV
  locked : Bool
deriving Repr, DecidableEq

/-- A store with nothing in it. -/
def StoreState.empty : StoreState :=
  { kv := [], kd := [], refs := [], files := [], partials := [], locked := false }

/-! ### Payload files -/

/-- `PayloadDriver.Set`, `/repo/pkg/data_model/payload_kv_driver/filesystem.go:102-112`: the
new files, the digest and the length. With an empty file name the path is the directory itself
and `os.WriteFile` fails unnoticed. -/
def payloadSet (env : StoreEnv) (files : KV) (payload : Bytes) : KV × Bytes × UInt64 :=
  let digest := env.hash payload
  let name := env.fileKey digest
  (if name = [] then files else files.set name payload, digest, UInt64.ofNat payload.length)

/-- `PayloadDriver.Get` and `Payload.Bytes`,
`/repo/pkg/data_model/payload_kv_driver/filesystem.go:74-85` and 32-35; `none` is the returned
error. With an empty file name the directory exists and reading it yields nothing. -/
def payloadGet (env : StoreEnv) (files : KV) (digest : Bytes) : Option Bytes :=
  let name := env.fileKey digest
  if name = [] then some [] else files.get name

/-- `Payload.BytesWithOffset`, `/repo/pkg/data_model/payload_kv_driver/filesystem.go:37-56`, for
an offset that is not negative; `none` is the returned error. -/
def payloadBytesWithOffset (content : Bytes) (offset : Nat) : Option Bytes :=
  if offset ≥ content.length then none else some (content.drop offset)

/-- `Payload.Length`, `/repo/pkg/data_model/payload_kv_driver/filesystem.go:58-68`. -/
def payloadLengthOf (content : Bytes) : UInt64 := UInt64.ofNat content.length

/-- `PayloadDriver.Erase`, `/repo/pkg/data_model/payload_kv_driver/filesystem.go:88-99`. The
callers ignore the result. Removing the directory (empty file name) fails as long as it holds
a file. -/
def payloadErase (env : StoreEnv) (files : KV) (digest : Bytes) : KV :=
  let name := env.fileKey digest
  if name = [] then files else files.delete name

/-- What `Receive` leaves in the staging file,
`/repo/pkg/data_model/payload_kv_driver/filesystem.go:158-226`. With a positive offset the
partial file is copied first (a missing one panics), but the file is then opened with
`O_TRUNC`, so `Truncate(offset)` extends an empty file with zeros. Reading nothing back at the
end panics (end of file) when `receivedLen` is positive; a read into an empty slice is fine. -/
def receiveStaging (env : StoreEnv) (partials : KV) (payload : Bytes) (offset : Nat) (expectedDigest : Bytes) :
    Res Bytes :=
  if offset > 0 then
    match partials.get (env.fileKey expectedDigest) with
    | none => .crash
    | some _ => .ok (List.replicate offset 0 ++ payload)
  else .ok payload

/-- `Receive` followed by the returned `commit`,
`/repo/pkg/data_model/payload_kv_driver/filesystem.go:158-253`: the digest, the received
length and the state of the files after the commit. With an empty file name the target is a
directory and neither `os.Rename` nor `os.Create` succeeds, which is only printed. -/
def receiveCommit (env : StoreEnv) (files partials : KV) (payload : Bytes) (offset : Nat)
    (expectedDigest : Bytes) (isComplete : Bool) : Res (Bytes × Nat × KV × KV) := do
  let staging ← receiveStaging env partials payload offset expectedDigest
  let name := env.fileKey expectedDigest
  let (files, partials) :=
    if name = [] then (files, partials)
    else if isComplete then (files.set name staging, partials) else (files, partials.set name staging)
  .ok (env.hash staging, offset + payload.length, files, partials)

/-! ### Entry driver -/

/-- Result of `EntryDriver.Get`: the error "entry does not exist", another error, or an
extended entry. -/
inductive GetRes where
  | missing
  | error
  | found (entry : Entry) (authDigest : Bytes)
deriving Repr, DecidableEq

/-- `EntryDriver.Get`, `/repo/pkg/data_model/entry_driver/entry_driver.go:56-92`. -/
def entryGet (env : StoreEnv) (st : StoreState) (subspace : Bytes) (path : Path) : Res GetRes := do
  let entryExists ← storageGet env.lib env.p st.kd subspace path
  match entryExists with
  | none => .ok .missing
  | some pos =>
    match st.kv.get (encodeKey env.p pos) with
    | none => .ok .error
    | some entryBytes => do
      let value ← decodeValues entryBytes
      .ok (.found { namespaceId := env.namespaceId, subspaceId := subspace, path := path,
                    payloadDigest := value.payloadDigest, payloadLength := value.payloadLength,
                    timestamp := pos.time } value.authDigest)

/-- The position of an entry. -/
def Entry.position (e : Entry) : Position :=
  { subspace := e.subspaceId, path := e.path, time := e.timestamp }

/-- `EntryDriver.Insert`, `/repo/pkg/data_model/entry_driver/entry_driver.go:94-117`; the
boolean is false when an error is returned (the database has been written by then). -/
def entryInsert (env : StoreEnv) (st : StoreState) (e : Entry) (authDigest : Bytes) : Bool × StoreState :=
  let kv := st.kv.set (encodeKey env.p e.position)
    (encodeValues { payloadLength := e.payloadLength, payloadDigest := e.payloadDigest, authDigest := authDigest })
  match kdAdd st.kd ⟨e.position, []⟩ with
  | none => (false, { st with kv := kv })
  | some kd => (true, { st with kv := kv, kd := kd })

/-- `EntryDriver.Delete`, `/repo/pkg/data_model/entry_driver/entry_driver.go:119-133`; its
callers ignore the result. -/
def entryDelete (env : StoreEnv) (st : StoreState) (e : Entry) : StoreState :=
  { st with kv := st.kv.delete (encodeKey env.p e.position), kd := kdDelete st.kd e.position }

/-- The entry of a stored position and value,
`/repo/pkg/data_model/entry_driver/entry_driver.go:150-157`. -/
def storedEntry (env : StoreEnv) (pos : Position) (v : Values) : Entry :=
  { namespaceId := env.namespaceId, subspaceId := pos.subspace, path := pos.path,
    payloadDigest := v.payloadDigest, payloadLength := v.payloadLength, timestamp := pos.time }

/-- The loop of `EntryDriver.Query`, `/repo/pkg/data_model/entry_driver/entry_driver.go:138-162`;
`Res.err` is the returned error. -/
def entryQueryLoop (env : StoreEnv) (st : StoreState) : List KdKey → List (Entry × Bytes) → Res (List (Entry × Bytes))
  | [], entries => .ok entries
  | node :: rest, entries =>
    match st.kv.get (encodeKey env.p node.pos) with
    | none => .err
    | some encodedValue => do
      let v ← decodeValues encodedValue
      entryQueryLoop env st rest (entries ++ [(storedEntry env node.pos v, v.authDigest)])

/-- Go's zero `ExtendedEntry`. -/
def blankEntry : Entry × Bytes :=
  ({ namespaceId := [], subspaceId := [], path := [], payloadDigest := [], payloadLength := 0, timestamp := 0 }, [])

/-- `EntryDriver.Query`, `/repo/pkg/data_model/entry_driver/entry_driver.go:135-164`: line 137
makes a slice that already has one zero element per node, and the loop appends. -/
def entryQuery (env : StoreEnv) (st : StoreState) (r : Range3d) : Res (List (Entry × Bytes)) :=
  let entryNodes := env.lib.query st.kd r
  entryQueryLoop env st entryNodes (List.replicate entryNodes.length blankEntry)

/-! ### Store -/

/-- The loop of `PrunableEntries`, `/repo/pkg/data_model/store/store.go:257-268`; `none` is the
returned error. -/
def prunableLoop (env : StoreEnv) (st : StoreState) (time : UInt64) :
    List KdKey → Res (Option (List (Entry × Bytes)))
  | [] => .ok (some [])
  | k :: rest =>
    if k.pos.time < time then do
      let r ← entryGet env st k.pos.subspace k.pos.path
      match r with
      | .found e a => do
        let more ← prunableLoop env st time rest
        .ok (more.map ((e, a) :: ·))
      | _ => .ok none
    else prunableLoop env st time rest

/-- `PrunableEntries`, `/repo/pkg/data_model/store/store.go:245-270`. -/
def prunableEntries (env : StoreEnv) (st : StoreState) (pos : Position) : Res (Option (List (Entry × Bytes))) := do
  let candidates ← prefixedBy env.lib env.p st.kd pos.subspace pos.path
  prunableLoop env st pos.time candidates

/-- The deletion loop of `InsertEntry`, `/repo/pkg/data_model/store/store.go:224-240`; `none`
is the returned error. -/
def pruneLoop (env : StoreEnv) : List (Entry × Bytes) → StoreState → Res (Option (List Entry) × StoreState)
  | [], st => .ok (some [], st)
  | (e, _) :: rest, st =>
    let st := entryDelete env st e
    match refDecrement st.refs e.payloadDigest with
    | .ok (count, refs) =>
      let st := { st with refs := refs }
      let st := if count = 0 then { st with files := payloadErase env st.files e.payloadDigest } else st
      match pruneLoop env rest st with
      | .ok (some pruned, st) => .ok (some (e :: pruned), st)
      | r => r
    | .err => .ok (none, st)
    | .crash => .crash
    | .block => .block

/-- `SuccessorPrefix`, called by `PrefixedBy` for the path of the entry just inserted, changes
that path in place (see `successorPrefixMutated`); the key in the tree refers to the same
memory. Simplification: every call of the store is given freshly allocated path components (as
`ConvertToByteSlices` does), so no other key is affected. -/
def corruptKey (p : PathParams) (kd : List KdKey) (pos : Position) : List KdKey :=
  kd.map fun k =>
    if k.pos = pos then { k with pos := { k.pos with path := successorPrefixMutated pos.path p } } else k

/-- `InsertEntry`, `/repo/pkg/data_model/store/store.go:178-243`; `none` is the returned error.
The result of `Increment` is ignored. -/
def insertEntry (env : StoreEnv) (st : StoreState) (e : Entry) (authToken : Bytes) :
    Res (Option (List Entry) × StoreState) :=
  let (files, authDigest, _) := payloadSet env st.files (env.tokenEncode authToken)
  match entryInsert env { st with files := files } e authDigest with
  | (false, st) => .ok (none, st)
  | (true, st) =>
    match refIncrement st.refs e.payloadDigest with
    | .ok (_, refs) =>
      let st := { st with refs := refs, kd := corruptKey env.p st.kd e.position }
      match prunableEntries env st e.position with
      | .ok (some prunable) => pruneLoop env prunable st
      | .ok none => .ok (none, st)
      | .err => .err
      | .crash => .crash
      | .block => .block
    | .err => .err
    | .crash => .crash
    | .block => .block

/-- `IngestEntry` from line 132 to 145 of `/repo/pkg/data_model/store/store.go`: remove the
entry that is being replaced; `none` is the error return at line 140. -/
def replaceOther (env : StoreEnv) (st : StoreState) (other : Entry) (otherAuth : Bytes) (e : Entry) :
    Res (Option Unit × StoreState) :=
  let st := entryDelete env st other
  let st := { st with files := payloadErase env st.files otherAuth }
  if other.payloadDigest ≠ e.payloadDigest then
    match refDecrement st.refs other.payloadDigest with
    | .ok (count, refs) =>
      let st := { st with refs := refs }
      .ok (some (), if count = 0 then { st with files := payloadErase env st.files other.payloadDigest } else st)
    | .err => .ok (none, st)
    | .crash => .crash
    | .block => .block
  else .ok (some (), st)

/-- `IngestEntry` from line 151 to 175 of `/repo/pkg/data_model/store/store.go`. -/
def finishIngest (env : StoreEnv) (st : StoreState) (e : Entry) (authorisation : Bytes) :
    Res (Option (List Entry) × StoreState) :=
  match insertEntry env st e authorisation with
  | .ok (some pruned, st) => .ok (some pruned, { st with locked := false })
  | r => r

/-- `IngestEntry`, `/repo/pkg/data_model/store/store.go:68-176`; `none` is a returned error. The
state records whether the lock is still held. The comparison at line 105 is between values of
different types, hence never equal; when no entry was found the zero entry has the empty path,
which differs from the path of the entry (the empty path has panicked at line 89). The conditions at lines
112 and 116 need equal timestamps, which line 108 has excluded. -/
def ingestEntry (env : StoreEnv) (st : StoreState) (e : Entry) (authorisation : Bytes) :
    Res (Option (List Entry) × StoreState) :=
  if st.locked then .block
  else
    let held := { st with locked := true }
    if !env.nsEqual env.namespaceId e.namespaceId then .ok (none, st)
    else if !env.isAuthorised e authorisation then .ok (none, st)
    else
      match driverPrefixesOf env.lib env.p st.kd e.subspaceId e.path with
      | .ok prefixes =>
        if prefixes.any (fun k => k.pos.time ≥ e.timestamp) then .ok (none, st)
        else
          match entryGet env held e.subspaceId e.path with
          | .ok .error => .ok (none, held)
          | .ok .missing => finishIngest env held e authorisation
          | .ok (.found other otherAuth) =>
            if orderPath other.path e.path = .eq then
              if other.timestamp ≥ e.timestamp then .ok (none, st)
              else
                match replaceOther env held other otherAuth e with
                | .ok (some _, st) => finishIngest env st e authorisation
                | .ok (none, st) => .ok (none, st)
                | .err => .err
                | .crash => .crash
                | .block => .block
            else finishIngest env held e authorisation
          | .err => .err
          | .crash => .crash
          | .block => .block
      | .err => .err
      | .crash => .crash
      | .block => .block

/-- `datamodeltypes.EntryInput`, `/repo/pkg/data_model/datamodeltypes/storetypes.go`. -/
structure EntryInput where
  subspace : Bytes
  path : Path
  timestamp : UInt64
  payload : Bytes
deriving Repr, DecidableEq

/-- The entry made by `Set`, `/repo/pkg/data_model/store/store.go:36-49`; `now` is the clock. -/
def setEntry (env : StoreEnv) (now : UInt64) (input : EntryInput) : Entry :=
  { namespaceId := env.namespaceId, subspaceId := input.subspace, path := input.path,
    payloadDigest := env.hash input.payload, payloadLength := UInt64.ofNat input.payload.length,
    timestamp := if input.timestamp = 0 then now else input.timestamp }

/-- `Set`, `/repo/pkg/data_model/store/store.go:32-66`; `none` is a returned error. -/
def storeSet (env : StoreEnv) (st : StoreState) (now : UInt64) (input : EntryInput) (authorisation : Bytes) :
    Res (Option (List Entry) × StoreState) :=
  let (files, digest, _) := payloadSet env st.files input.payload
  let st := { st with files := files }
  let entry := setEntry env now input
  match env.authorise entry authorisation with
  | none => .ok (none, st)
  | some authToken =>
    match ingestEntry env st entry authToken with
    | .ok (some pruned, st) =>
      match refCount st.refs digest with
      | .ok count =>
        .ok (some pruned, if count = 0 then { st with files := payloadErase env st.files digest } else st)
      | .err => .ok (none, st)
      | .crash => .crash
      | .block => .block
    | r => r

/-- `IngestPayload`, `/repo/pkg/data_model/store/store.go:281-347`; `none` is a returned error.
The test at line 299 lets only a nil value pass, and decoding a nil value panics, so lines
307-346 are never reached. -/
def ingestPayload (env : StoreEnv) (st : StoreState) (pos : Position) (_payload : Bytes) (_allowPartial : Bool)
    (_offset : Nat) : Res (Option Unit × StoreState) :=
  match st.kv.get (encodeKey env.p pos) with
  | none => .ok (none, st)
  | some v => if v ≠ [] then .ok (none, st) else .crash

/-- `GetPayload`, `/repo/pkg/data_model/store/store.go:358-375`; `none` is a returned error. -/
def storeGetPayload (env : StoreEnv) (st : StoreState) (pos : Position) : Res (Option Bytes) :=
  match st.kv.get (encodeKey env.p pos) with
  | none => .ok none
  | some v => do
    let value ← decodeValues v
    .ok (payloadGet env st.files value.payloadDigest)

/-- `List`, `/repo/pkg/data_model/store/store.go:378-380`. -/
def storeList (env : StoreEnv) (st : StoreState) : List KdKey := env.lib.values st.kd

/-- `ListWithAOI`, `/repo/pkg/data_model/store/store.go:383-390`. -/
def listWithAOI (env : StoreEnv) (st : StoreState) (aoi : AreaOfInterest) : Res (List Entry) :=
  listValues env.p st.kv aoi env.namespaceId

/-- The loop of `InitKDTree`, `/repo/PinaGoladaStore/StoreDriver.go:74-86`, over the pairs
given by `ListAllValues`. -/
def initKeys (p : PathParams) : List (Bytes × Bytes) → Res (List KdKey)
  | [] => .ok []
  | (key, value) :: rest => do
    let pos ← decodeKey p key
    let v ← decodeValues value
    let more ← initKeys p rest
    .ok (⟨pos, v.authDigest⟩ :: more)

/-- Closing the application and opening it again: `InitStorage` and `InitKDTree`,
`/repo/PinaGoladaStore/StoreDriver.go:18-88`. The databases and files persist, the tree is
built from the pairs listed by `ListAllValues`
(`/repo/pkg/data_model/kv_driver/kv_driver_pebble.go:112-144`), the lock is new. `listed` gives
what that list shows after the iteration: the code keeps `iter.Key()`, whose contents may
change when the iterator moves; `listed kv = kv` when they do not. -/
def restart (env : StoreEnv) (listed : KV → List (Bytes × Bytes)) (st : StoreState) : Res StoreState := do
  let keys ← initKeys env.p (listed st.kv)
  .ok { st with kd := keys, locked := false }

end Willow
