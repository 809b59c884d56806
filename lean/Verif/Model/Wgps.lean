import Verif.Model.Handles
import Verif.Model.Areas
import Verif.Model.Kv
import Verif.Model.Store
import Verif.Model.Paths

/-! Model of the small parts of `/repo/pkg/wgps`: the guarantee queue, the map of reconcilers,
the finders, the reconciler's answer, the payload ingester, the data sender and the fragments. -/

namespace Willow

/-! ### Guarantee queue -/

/-- `GuaranteedQueue`, `/repo/pkg/wgps/guaranteed_queue.go:8-13`. The channel `Queue` is the
list of the slices in it and its capacity; nothing receives from it (the receivers at
`/repo/pkg/wgps/wgps_messenger.go:723-780` are commented out). -/
structure GuaranteedQueue where
  guarantees : UInt64
  queue : List Bytes
  capacity : Nat
  received : Bytes
  outgoing : Bytes
deriving Repr, DecidableEq

/-- A queue as made at `/repo/pkg/wgps/wgps_messenger.go:384-388`: both slices start with one
zero byte. -/
def GuaranteedQueue.new : GuaranteedQueue := ⟨0, [], 32, [0], [0]⟩

/-- `len(string(b))` for a byte: it is encoded as UTF-8. -/
def utf8Len (b : UInt8) : Nat := if b < 0x80 then 1 else 2

/-- `len(strconv.FormatUint(n, 10))`. -/
def decimalLen (n : UInt64) : Nat := (Nat.toDigits 10 n.toNat).length

/-- The loop of `UseGuarantees`, `/repo/pkg/wgps/guaranteed_queue.go:39-50`, while the channel is
not empty (the loop does not receive from it): guarantees, received and outgoing bytes. Line 40
panics when no received byte is left. -/
def useGuaranteesLoop (guarantees : UInt64) (outgoing : Bytes) : Bytes → Res (UInt64 × Bytes × Bytes)
  | [] => .crash
  | head :: rest =>
    if utf8Len head > decimalLen guarantees then .ok (guarantees, head :: rest, outgoing)
    else useGuaranteesLoop (guarantees - UInt64.ofNat (utf8Len head)) (outgoing ++ [head]) rest

/-- `UseGuarantees`, `/repo/pkg/wgps/guaranteed_queue.go:38-51`. -/
def GuaranteedQueue.useGuarantees (q : GuaranteedQueue) : Res GuaranteedQueue :=
  if q.queue.length > 0 then do
    let (g, received, outgoing) ← useGuaranteesLoop q.guarantees q.outgoing q.received
    .ok { q with guarantees := g, received := received, outgoing := outgoing }
  else .ok q

/-- `Push`, `/repo/pkg/wgps/guaranteed_queue.go:16-20`. -/
def GuaranteedQueue.push (q : GuaranteedQueue) (bytes : Bytes) : Res GuaranteedQueue :=
  if q.queue.length < q.capacity then
    GuaranteedQueue.useGuarantees { q with queue := q.queue ++ [bytes], received := q.received ++ bytes }
  else .block

/-- `AddGuarantees`, `/repo/pkg/wgps/guaranteed_queue.go:23-26`. -/
def GuaranteedQueue.addGuarantees (q : GuaranteedQueue) (bytes : UInt64) : Res GuaranteedQueue :=
  GuaranteedQueue.useGuarantees { q with guarantees := q.guarantees + bytes }

/-- `Plead`, `/repo/pkg/wgps/guaranteed_queue.go:32-36`. -/
def GuaranteedQueue.plead (q : GuaranteedQueue) (targetSize : UInt64) : UInt64 × GuaranteedQueue :=
  let absolveAmount := q.guarantees - targetSize
  (absolveAmount, { q with guarantees := q.guarantees - absolveAmount })

/-- A call on a guarantee queue. -/
inductive QueueOp where
  | push (bytes : Bytes)
  | add (bytes : UInt64)
  | plead (targetSize : UInt64)

/-- One call. -/
def GuaranteedQueue.step (q : GuaranteedQueue) : QueueOp → Res GuaranteedQueue
  | .push bytes => q.push bytes
  | .add bytes => q.addGuarantees bytes
  | .plead targetSize => .ok (q.plead targetSize).2

/-- Calls one after the other. -/
def GuaranteedQueue.run (q : GuaranteedQueue) : List QueueOp → Res GuaranteedQueue
  | [] => .ok q
  | op :: ops => do
    let q ← q.step op
    q.run ops

/-! ### Map of reconcilers -/

/-- `ReconcilerMap`, `/repo/pkg/wgps/reconciliation/reconciler_map.go:9-11`. -/
abbrev ReconcilerMap (ρ : Type) := GoMap UInt64 (GoMap UInt64 ρ)

/-- `AddReconciler`, `/repo/pkg/wgps/reconciliation/reconciler_map.go:13-24`: the inner map that
exists is written to and then replaced. -/
def ReconcilerMap.add {ρ : Type} (r : ReconcilerMap ρ) (ours theirs : UInt64) (reconciler : ρ) : ReconcilerMap ρ :=
  let r : ReconcilerMap ρ :=
    match GoMap.get r ours with
    | some existing => GoMap.set r ours (existing.set theirs reconciler)
    | none => r
  GoMap.set r ours (GoMap.set [] theirs reconciler)

/-- `GetReconciler`, `/repo/pkg/wgps/reconciliation/reconciler_map.go:26-40`; `none` is a
returned error. -/
def ReconcilerMap.find {ρ : Type} (r : ReconcilerMap ρ) (ours theirs : UInt64) : Option ρ :=
  match GoMap.get r ours with
  | none => none
  | some inner => inner.get theirs

/-! ### Intersecting areas of interest -/

/-- What the finder is given: equality of namespaces, the two handle stores (their maps are
shared with the messenger), and the order in which Go visits a map. -/
structure FinderEnv where
  nsEqual : Bytes → Bytes → Bool
  handlesOurs : UInt64 → Option AreaOfInterest
  handlesTheirs : UInt64 → Option AreaOfInterest
  visit : GoMap UInt64 Bytes → List (UInt64 × Bytes)
  perm : ∀ m, (visit m).Perm m

/-- `AoiIntersectionFinder`, `/repo/pkg/wgps/reconciliation/aoi_intersection_finder.go:20-34`. -/
structure AoiFinder where
  ours : GoMap UInt64 Bytes
  theirs : GoMap UInt64 Bytes
  queue : List (Bytes × UInt64 × UInt64)
deriving Repr, DecidableEq

/-- Go's zero `AreaOfInterest`, used when a handle is not bound (lines 90-98 of
`aoi_intersection_finder.go` only make an error value). -/
def zeroAoi : AreaOfInterest :=
  ⟨⟨[], false, [], ⟨0, 0, false⟩⟩, 0, 0⟩

/-- The loop of `AddAoiHandleToNamespace`,
`/repo/pkg/wgps/reconciliation/aoi_intersection_finder.go:85-128`: what is appended. -/
def addAoiLoop (env : FinderEnv) (handle : UInt64) (namespaceId : Bytes) (ours : Bool) :
    List (UInt64 × Bytes) → List (Bytes × UInt64 × UInt64)
  | [] => []
  | (otherHandle, otherNamespace) :: rest =>
    if !env.nsEqual namespaceId otherNamespace then addAoiLoop env handle namespaceId ours rest
    else
      let aoi := ((if ours then env.handlesOurs else env.handlesTheirs) handle).getD zeroAoi
      let aoiOther := ((if ours then env.handlesTheirs else env.handlesOurs) otherHandle).getD zeroAoi
      match intersectArea orderSubspace aoi.area aoiOther.area with
      | none => addAoiLoop env handle namespaceId ours rest
      | some _ =>
        (namespaceId, if ours then handle else otherHandle, if ours then otherHandle else handle) ::
          addAoiLoop env handle namespaceId ours rest

/-- `AddAoiHandleToNamespace`,
`/repo/pkg/wgps/reconciliation/aoi_intersection_finder.go:53-129`. -/
def AoiFinder.add (env : FinderEnv) (f : AoiFinder) (handle : UInt64) (namespaceId : Bytes) (ours : Bool) : AoiFinder :=
  if ours then
    { f with ours := f.ours.set handle namespaceId,
             queue := f.queue ++ addAoiLoop env handle namespaceId true (env.visit f.theirs) }
  else
    { f with theirs := f.theirs.set handle namespaceId,
             queue := f.queue ++ addAoiLoop env handle namespaceId false (env.visit f.ours) }

/-- Additions one after the other, from a new finder. -/
def AoiFinder.run (env : FinderEnv) (adds : List (UInt64 × Bytes × Bool)) : AoiFinder :=
  adds.foldl (fun f a => f.add env a.1 a.2.1 a.2.2) ⟨[], [], []⟩

/-! ### Capabilities -/

/-- What the capability finder is given: namespace and area of the capability bound to a handle
(of the zero capability when none is bound), the key of a namespace, and the order in which Go
visits a map. -/
structure CapEnv where
  namespaceOf : UInt64 → Bytes
  areaOf : UInt64 → Area
  key : Bytes → Bytes
  visit : GoMap UInt64 Unit → List UInt64
  visits : ∀ m h, h ∈ visit m ↔ m.get h = some ()

/-- `CapFinder`, `/repo/pkg/wgps/cap_finder.go:23-26`. -/
abbrev CapFinder := GoMap Bytes (GoMap UInt64 Unit)

/-- `AddCap`, `/repo/pkg/wgps/cap_finder.go:57-77`. Line 68 writes to the inner map before line
71 makes sure that there is one; writing to a nil map panics. -/
def CapFinder.addCap (env : CapEnv) (c : CapFinder) (handle : UInt64) : Res CapFinder :=
  let key := env.key (env.namespaceOf handle)
  match GoMap.get c key with
  | none => .crash
  | some inner => .ok (GoMap.set c key (inner.set handle ()))

/-- The loop of `FindCapHandle`, `/repo/pkg/wgps/cap_finder.go:87-101`. -/
def findCapLoop (env : CapEnv) (pos : Position) : List UInt64 → UInt64
  | [] => 0
  | handle :: rest =>
    if isIncludedArea orderSubspace (env.areaOf handle) pos then handle else findCapLoop env pos rest

/-- `FindCapHandle`, `/repo/pkg/wgps/cap_finder.go:79-103`. -/
def CapFinder.find (env : CapEnv) (c : CapFinder) (entry : Entry) : UInt64 :=
  match GoMap.get c (env.key entry.namespaceId) with
  | none => 0
  | some set => findCapLoop env entry.position (env.visit set)

/-! ### Reconciler -/

/-- `FingerprintScheme` as far as `Respond` uses it. -/
structure FpScheme where
  finalise : Bytes → Bytes
  isEqual : Bytes → Bytes → Bool

/-- The answer of `Respond`: nothing, an announcement of a range, or fingerprints of two ranges
(the last with `Covers`). -/
inductive Response where
  | nothing
  | announce (r : Range3d)
  | split (left : Range3d) (leftFp : Bytes) (right : Range3d) (rightFp : Bytes) (covers : UInt64)
deriving Repr, DecidableEq

/-- `Respond`, `/repo/pkg/wgps/reconciliation/reconciler.go:128-210`, for a counter that is not
negative. `SEND_ENTRIES_THRESHOLD` is 8. -/
def respond (lib : KdLib) (fps : FpScheme) (kd : List KdKey) (yourRange : Range3d) (fingerprint : Bytes)
    (yourRangeCounter : Nat) : Res Response := do
  let (fp, size) ← summarise lib kd yourRange
  if fps.isEqual fingerprint (fps.finalise fp) then .ok .nothing
  else if size ≤ 8 then .ok (.announce yourRange)
  else do
    let (left, right) ← splitRange lib kd yourRange
    let (leftFp, _) ← summarise lib kd left
    let (rightFp, _) ← summarise lib kd right
    .ok (.split left (fps.finalise leftFp) right (fps.finalise rightFp) (UInt64.ofNat yourRangeCounter))

/-! ### Payload ingester -/

/-- `Event`, `/repo/pkg/wgps/data/payload_ingester.go:29-33`. -/
structure IngestEvent where
  entry : Option Entry
  data : Bytes
  cancel : Bool
deriving Repr, DecidableEq

/-- The values of `Kind` in `/repo/pkg/wgps/data/payload_ingester.go`. -/
inductive IngestKind where
  | uninitialised
  | active
  | cancelled
  | pending
deriving Repr, DecidableEq

/-- The state of the goroutine of `NewPayloadIngester`: `CurrentIngestion`
(`/repo/pkg/wgps/data/payload_ingester.go:21-27`) and, for the specification, the calls of
`IngestPayload` made so far. The channel `FifoQueue` (capacity 32, nothing receives from it) is
the list of its contents. -/
structure Ingester where
  kind : IngestKind
  fifo : List IngestEvent
  receivedLength : UInt64
  entry : Option Entry
  calls : List (Position × Bytes)
deriving Repr, DecidableEq

/-- The initial state, `/repo/pkg/wgps/data/payload_ingester.go:60-62`. -/
def Ingester.new : Ingester := ⟨.uninitialised, [], 0, none, []⟩

/-- Sending to `FifoQueue`. -/
def Ingester.send (s : Ingester) (e : IngestEvent) : Res Ingester :=
  if s.fifo.length < 32 then .ok { s with fifo := s.fifo ++ [e] } else .block

/-- The callback, `/repo/pkg/wgps/data/payload_ingester.go:64-123`. -/
def Ingester.handle (process : Bytes → UInt64 → Bytes) (s : Ingester) (value : IngestEvent) : Res Ingester :=
  if value.cancel then
    if s.kind = .active then do
      let s ← s.send ⟨none, [], true⟩
      .ok { s with kind := .cancelled }
    else if value.entry.isSome then
      if s.kind = .active then do
        let s ← s.send ⟨none, [], true⟩
        .ok { s with kind := .pending, fifo := [], receivedLength := 0, entry := value.entry }
      else .ok s
    else if s.kind = .active then
      match s.entry with
      | none => .crash
      | some e => do
        let transformed := process value.data e.payloadLength
        let s := { s with receivedLength := s.receivedLength + UInt64.ofNat transformed.length }
        s.send ⟨some e, transformed, false⟩
    else if s.kind = .pending then
      match s.entry with
      | none => .crash
      | some e =>
        let transformed := process value.data e.payloadLength
        .ok ⟨.active, [⟨some e, transformed, false⟩], UInt64.ofNat transformed.length, some e,
          s.calls ++ [(e.position, transformed)]⟩
    else .ok s
  else .ok s

/-- A call on the ingester: `Target`, `Push`, `Terminate`,
`/repo/pkg/wgps/data/payload_ingester.go:129-157`. -/
inductive IngesterOp where
  | target (entry : Entry)
  | push (bytes : Bytes) (isEnd : Bool)
  | terminate

/-- The events put into the channel by a call. -/
def IngesterOp.events : IngesterOp → List IngestEvent
  | .target e => [⟨some e, [], false⟩]
  | .push b isEnd => ⟨none, b, false⟩ :: if isEnd then [⟨none, [], true⟩] else []
  | .terminate => [⟨none, [], true⟩]

/-- The events are handled in order. -/
def Ingester.handleAll (process : Bytes → UInt64 → Bytes) (s : Ingester) : List IngestEvent → Res Ingester
  | [] => .ok s
  | e :: es => do
    let s ← s.handle process e
    s.handleAll process es

/-! ### Data sender -/

/-- An element of `InternalQueue`, `/repo/pkg/wgps/data/data_sender.go:20-32`: an entry or a
payload request, with the contents of its payload. The first element is nil (line 53) and is
skipped by `Messages`. -/
inductive SendItem where
  | nil
  | entry (entry : Entry) (offset staticTokenHandle : UInt64) (dynamicToken : Bytes) (payload : Bytes)
  | request (handle offset : UInt64) (payload : Bytes)
deriving Repr, DecidableEq

/-- The messages made by `Messages`. -/
inductive DataMsg where
  | sendEntry (entry : Entry) (staticTokenHandle : UInt64) (dynamicToken : Bytes) (offset : UInt64)
  | replyPayload (handle : UInt64)
  | sendPayload (amount : UInt64) (bytes : Bytes)
deriving Repr, DecidableEq

/-- `BytesWithOffset(int(offset))`, `/repo/pkg/data_model/payload_kv_driver/filesystem.go:37-56`.
An offset of 2^63 or more is negative as an `int`; reading there is an error. Simplification:
the slice made at line 50 in that case can be allocated; `Verif/Model/PayloadOffsets.lean` is without it. -/
def bytesFrom (content : Bytes) (offset : UInt64) : Option Bytes :=
  if goInt offset.toNat < 0 then none else payloadBytesWithOffset content offset.toNat

/-- The loops at `/repo/pkg/wgps/data/data_sender.go:116-126` and 141-151: one message per
byte. -/
def payloadMessages (transform : Bytes → Bytes) : Bytes → List DataMsg
  | [] => []
  | chunk :: rest =>
    .sendPayload (UInt64.ofNat (transform [chunk]).length) (transform [chunk]) :: payloadMessages transform rest

/-- `Messages`, `/repo/pkg/wgps/data/data_sender.go:95-158`: the messages, and whether an error
is returned. -/
def dataMessages (transform : Bytes → Bytes) : List SendItem → List DataMsg × Bool
  | [] => ([], false)
  | .nil :: rest => dataMessages transform rest
  | .entry e offset staticTokenHandle dynamicToken payload :: rest =>
    match bytesFrom payload offset with
    | none => ([.sendEntry e staticTokenHandle dynamicToken offset], true)
    | some bytes =>
      let (more, failed) := dataMessages transform rest
      (.sendEntry e staticTokenHandle dynamicToken offset :: (payloadMessages transform bytes ++ more), failed)
  | .request handle offset payload :: rest =>
    match bytesFrom payload offset with
    | none => ([.replyPayload handle], true)
    | some bytes =>
      let (more, failed) := dataMessages transform rest
      (.replyPayload handle :: (payloadMessages transform bytes ++ more), failed)

/-! ### Fragments -/

/-- `FragmentKit`, `/repo/pkg/wgps/wgpstypes/pai_types.go:40-53`. -/
inductive FragmentKit where
  | complete (namespaceId : Bytes) (path : Path)
  | selective (namespaceId subspaceId : Bytes) (path : Path)
deriving Repr, DecidableEq

/-- `FragmentsSelective`, `/repo/pkg/wgps/wgpstypes/pai_types.go:28-31`; `CreateFragmentSet`
returns nothing else. -/
structure FragmentSet where
  primary : List (Bytes × Bytes × Path)
  secondary : List (Bytes × Path)
deriving Repr, DecidableEq

/-- `CreateFragmentSet`, `/repo/pkg/wgps/pai/pai_finder.go:552-588`. -/
def createFragmentSet : FragmentKit → FragmentSet
  | .selective n s path =>
    ⟨(prefixesOf path).map fun pre => (n, s, pre), (prefixesOf path).map fun pre => (n, pre)⟩
  | .complete n path => ⟨[], (prefixesOf path).map fun pre => (n, pre)⟩

end Willow
