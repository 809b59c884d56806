import Verif.Model.KdTree
import Verif.Model.Keys
import Verif.Model.Successor

/-! Model of the pebble database as used through
`/repo/pkg/data_model/kv_driver/kv_driver_pebble.go`, of the reference counter, of the prefix
driver and of `KDTreeStorage`. -/

namespace Willow

/-- Contents of a pebble database: key/value pairs in ascending key order (contract of the
library: a finite map iterated in byte order). Simplification: a value returned by `Get` keeps
its contents (`kv_driver_pebble.go:70-77` returns it after closing it), and the database
itself never fails. -/
abbrev KV := List (Bytes × Bytes)

/-- `KvDriver.Get`, `/repo/pkg/data_model/kv_driver/kv_driver_pebble.go:70-77`; `none` is the
error "pebble: not found". -/
def KV.get : KV → Bytes → Option Bytes
  | [], _ => none
  | (k', v) :: rest, k => if k' = k then some v else get rest k

/-- `KvDriver.Set`, `/repo/pkg/data_model/kv_driver/kv_driver_pebble.go:79-85`. -/
def KV.set : KV → Bytes → Bytes → KV
  | [], k, v => [(k, v)]
  | (k', v') :: rest, k, v =>
    match orderBytes k k' with
    | .lt => (k, v) :: (k', v') :: rest
    | .eq => (k, v) :: rest
    | .gt => (k', v') :: set rest k v

/-- `KvDriver.Delete`, `/repo/pkg/data_model/kv_driver/kv_driver_pebble.go:87-93`. -/
def KV.delete (kv : KV) (k : Bytes) : KV := kv.filter (fun e => e.1 ≠ k)

/-- `binary.BigEndian.Uint64(b)`: panics when fewer than eight bytes are given. -/
def bigEndianUint64 (b : Bytes) : Res UInt64 :=
  if b.length < 8 then .crash else .ok (UInt64.ofNat (getBE (b.take 8)))

/-- `PayloadReferenceCounter.Increment`,
`/repo/pkg/data_model/payload_kv_driver/payload_ref_counter.go:28-42`. -/
def refIncrement (refs : KV) (digest : Bytes) : Res (UInt64 × KV) := do
  let currCount ← (match refs.get digest with
    | none => (.ok 1 : Res UInt64)
    | some b => (bigEndianUint64 b).map' (· + 1))
  .ok (currCount, refs.set digest (putU64 currCount.toNat))

/-- `PayloadReferenceCounter.Decrement`,
`/repo/pkg/data_model/payload_kv_driver/payload_ref_counter.go:50-62`; `Res.err` is the
returned error, nothing is written then. -/
def refDecrement (refs : KV) (digest : Bytes) : Res (UInt64 × KV) :=
  match refs.get digest with
  | none => .err
  | some b => do
    let c ← bigEndianUint64 b
    .ok (c - 1, refs.set digest (putU64 (c - 1).toNat))

/-- `PayloadReferenceCounter.Count`,
`/repo/pkg/data_model/payload_kv_driver/payload_ref_counter.go:68-77`. -/
def refCount (refs : KV) (digest : Bytes) : Res UInt64 :=
  match refs.get digest with
  | none => .err
  | some b => bigEndianUint64 b

/-- What the k-d tree library does with the callbacks of `kdnode` (contract): a query returns
the keys in the range in some order depending on the tree, `Values` all keys in some order. `C32` shows that a pruning search
with these callbacks is such a query. -/
structure KdLib where
  query : List KdKey → Range3d → List KdKey
  perm : ∀ kd q, (query kd q).Perm (kd.filter fun k => isIncluded3d orderSubspace q k.pos)
  values : List KdKey → List KdKey
  valuesPerm : ∀ kd, (values kd).Perm kd

/-- `KDTree.Add` (contract): refuses a key with the position of a stored key. -/
def kdAdd (kd : List KdKey) (k : KdKey) : Option (List KdKey) :=
  if kd.any (fun x => x.pos = k.pos) then none else some (kd ++ [k])

/-- `KDTree.Delete` (contract): removes the key with the given position. -/
def kdDelete (kd : List KdKey) (pos : Position) : List KdKey := kd.eraseP (fun x => x.pos = pos)

/-- The range of one subspace and one path at any time:
`/repo/pkg/data_model/datamodeltypes/entryDriverTypes.go:28-50` and
`/repo/pkg/data_model/kv_driver/prefix_driver.go:21-43`. A nil successor is an empty path. -/
def pointRange (p : PathParams) (subspace : Bytes) (path : Path) : Res Range3d := do
  let e ← successorPath path p
  .ok { subspace := ⟨subspace, successorSubspaceId subspace, false⟩,
        path := ⟨path, e.getD [], false⟩, time := ⟨0, 2, true⟩ }

/-- `KDTreeStorage.Get`, `/repo/pkg/data_model/datamodeltypes/entryDriverTypes.go:27-69`. The
zero position returned when nothing is found is `none`; it cannot be confused with a stored
position, except one with nil subspace, nil path and time 0. -/
def storageGet (lib : KdLib) (p : PathParams) (kd : List KdKey) (subspace : Bytes) (path : Path) :
    Res (Option Position) := do
  let range3d ← pointRange p subspace path
  match lib.query kd range3d with
  | [] => .ok none
  | [k] => .ok (some k.pos)
  | _ => .crash

/-- The loop of `DriverPrefixesOf`, `/repo/pkg/data_model/kv_driver/prefix_driver.go:20-48`. -/
def driverPrefixesLoop (lib : KdLib) (p : PathParams) (kd : List KdKey) (subspace : Bytes) :
    List Path → Res (List KdKey)
  | [] => .ok []
  | pre :: rest => do
    let range3d ← pointRange p subspace pre
    let more ← driverPrefixesLoop lib p kd subspace rest
    .ok (lib.query kd range3d ++ more)

/-- `DriverPrefixesOf`, `/repo/pkg/data_model/kv_driver/prefix_driver.go:13-50`. For the empty
path the slice expression `[1:0]` panics. -/
def driverPrefixesOf (lib : KdLib) (p : PathParams) (kd : List KdKey) (subspace : Bytes) (path : Path) :
    Res (List KdKey) := do
  let prefixes := prefixesOf path
  let proper ← slice prefixes 1 (prefixes.length - 1)
  driverPrefixesLoop lib p kd subspace proper

/-- The range of `PrefixedBy`, `/repo/pkg/data_model/kv_driver/prefix_driver.go:54-76`.
`SuccessorPrefix` is evaluated after `SuccessorPath` and may change the caller's path in place
(`successorPrefixMutated`); the start of the range shares its components with that path when it
is the path with one more component. -/
def belowRange (p : PathParams) (subspace : Bytes) (path : Path) : Res Range3d := do
  let s ← successorPath path p
  let e ← successorPrefix path p
  let s := s.getD []
  let s := if s.length = path.length + 1 then successorPrefixMutated path p ++ s.drop path.length else s
  .ok { subspace := ⟨subspace, successorSubspaceId subspace, false⟩,
        path := ⟨s, e.getD [], false⟩, time := ⟨0, 2, true⟩ }

/-- `PrefixedBy`, `/repo/pkg/data_model/kv_driver/prefix_driver.go:52-80`. -/
def prefixedBy (lib : KdLib) (p : PathParams) (kd : List KdKey) (subspace : Bytes) (path : Path) :
    Res (List KdKey) := do
  let range3d ← belowRange p subspace path
  .ok (lib.query kd range3d)

/-- How many bytes `range` over a string moves on (Go specification, and table `first` of `unicode/utf8` in the
standard library): the length of the UTF-8 encoding of a character at the beginning, or one byte if there is
none. -/
def runeWidth : Bytes → Nat
  | [] => 0
  | a :: rest =>
    if 0xC2 ≤ a ∧ a ≤ 0xDF then
      match rest with
      | b :: _ => if 0x80 ≤ b ∧ b ≤ 0xBF then 2 else 1
      | [] => 1
    else if 0xE0 ≤ a ∧ a ≤ 0xEF then
      match rest with
      | b :: c :: _ =>
        if (if a = 0xE0 then 0xA0 else 0x80) ≤ b ∧ b ≤ (if a = 0xED then 0x9F else 0xBF) ∧ 0x80 ≤ c ∧ c ≤ 0xBF
        then 3 else 1
      | _ => 1
    else if 0xF0 ≤ a ∧ a ≤ 0xF4 then
      match rest with
      | b :: c :: d :: _ =>
        if (if a = 0xF0 then 0x90 else 0x80) ≤ b ∧ b ≤ (if a = 0xF4 then 0x8F else 0xBF) ∧
            0x80 ≤ c ∧ c ≤ 0xBF ∧ 0x80 ≤ d ∧ d ≤ 0xBF
        then 4 else 1
      | _ => 1
    else 1

/-- The loop of `xorStrings`, `/repo/pkg/data_model/datamodeltypes/entryDriverTypes.go:178-181`: `for i := range a`
over a string visits only the bytes with which a character begins; the others of the result stay zero. `skip` is
how many bytes come before the next one visited. -/
def xorLoop : Nat → Bytes → Bytes → Bytes
  | _, [], _ => []
  | _, _ :: _, [] => []
  | 0, a :: as, b :: bs => (a ^^^ b) :: xorLoop (runeWidth (a :: as) - 1) as bs
  | skip + 1, _ :: as, _ :: bs => 0 :: xorLoop skip as bs

/-- `xorStrings`, `/repo/pkg/data_model/datamodeltypes/entryDriverTypes.go:165-183`. -/
def xorStrings (a b : Bytes) : Res Bytes :=
  if a.length ≠ b.length then .crash else .ok (xorLoop 0 a b)

/-- The loop of `Summarise`,
`/repo/pkg/data_model/datamodeltypes/entryDriverTypes.go:119-122`. -/
def summariseLoop : List KdKey → Bytes → UInt64 → Res (Bytes × UInt64)
  | [], fp, size => .ok (fp, size)
  | k :: ks, fp, size => do
    let fp ← xorStrings fp k.fingerprint
    summariseLoop ks fp (size + 1)

/-- `Summarise`, `/repo/pkg/data_model/datamodeltypes/entryDriverTypes.go:112-130`. -/
def summarise (lib : KdLib) (kd : List KdKey) (r : Range3d) : Res (Bytes × UInt64) :=
  summariseLoop (lib.query kd r) [] 0

/-- `sort.Slice` of the standard library on timestamps (contract, insertion sort as the
function): `/repo/pkg/data_model/datamodeltypes/entryDriverTypes.go:135-137`. -/
def insertByTime (k : KdKey) : List KdKey → List KdKey
  | [] => [k]
  | x :: xs => if k.pos.time ≤ x.pos.time then k :: x :: xs else x :: insertByTime k xs

/-- See `insertByTime`. Only the timestamps of the result are used, so any sorting algorithm
gives the same. -/
def sortByTime : List KdKey → List KdKey
  | [] => []
  | k :: ks => insertByTime k (sortByTime ks)

/-- `SplitRange`, `/repo/pkg/data_model/datamodeltypes/entryDriverTypes.go:133-163`. Indexing
an empty slice panics. -/
def splitRange (lib : KdLib) (kd : List KdKey) (r : Range3d) : Res (Range3d × Range3d) :=
  let entries := sortByTime (lib.query kd r)
  match entries[entries.length / 2]? with
  | none => .crash
  | some m =>
    let median := m.pos.time
    .ok ({ subspace := r.subspace, path := r.path, time := ⟨r.time.start, median, false⟩ },
         { subspace := r.subspace, path := r.path, time := ⟨median, r.time.stop, r.time.openEnd⟩ })

/-- The loop of `ListValues`, `/repo/pkg/data_model/kv_driver/kv_driver_pebble.go:184-243`, over
the remaining pairs in descending key order. Simplification: the slices of `iter.Key()` kept in
the result keep their contents when the iterator moves. -/
def listValuesLoop (p : PathParams) (aoi : AreaOfInterest) (namespaceId : Bytes) :
    List (Bytes × Bytes) → List Entry → UInt64 → Res (List Entry)
  | [], values, _ => .ok values
  | (key, val) :: rest, values, payloadLength => do
    let pos ← decodeKey p key
    if pos.time > aoi.area.times.stop ∨ orderSubspace pos.subspace aoi.area.subspace ≠ .eq ∨
        pos.path.length < aoi.area.path.length then
      listValuesLoop p aoi namespaceId rest values payloadLength
    else if orderPath (pos.path.take aoi.area.path.length) aoi.area.path ≠ .eq then
      listValuesLoop p aoi namespaceId rest values payloadLength
    else if (aoi.maxCount > 0 ∧ (values.length : Int) ≥ goInt aoi.maxCount.toNat) ∨
        pos.time < aoi.area.times.start then
      .ok values
    else do
      let value ← decodeValues val
      let total := payloadLength + value.payloadLength
      if aoi.maxSize > 0 ∧ total ≥ aoi.maxSize then .ok values
      else
        listValuesLoop p aoi namespaceId rest
          (values ++ [{ namespaceId := namespaceId, subspaceId := pos.subspace, path := pos.path,
                        payloadDigest := value.payloadDigest, payloadLength := value.payloadLength,
                        timestamp := pos.time }])
          total

/-- `ListValues`, `/repo/pkg/data_model/kv_driver/kv_driver_pebble.go:163-245`, which iterates
from the last key to the first. -/
def listValues (p : PathParams) (kv : KV) (aoi : AreaOfInterest) (namespaceId : Bytes) : Res (List Entry) :=
  listValuesLoop p aoi namespaceId kv.reverse [] 0

end Willow
