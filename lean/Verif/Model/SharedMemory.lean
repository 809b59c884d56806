import Verif.Model.Iterator
import Verif.Model.Areas
import Verif.Model.Store

/-! Positions and areas whose path and subspace are slices of one buffer, as decoders return them, and
what looking them up or turning them into ranges does to that buffer. -/

namespace Willow

/-- Memory after the loop of `SuccessorPath`, `/repo/utils/successor.go:21-30`, on a path whose components
are windows of `mem`: `TryAppendZeroByte` (68-74) appends to the component itself, `SuccessorBytesFixedWidth`
(88-114) works on a copy. -/
def successorPathMemLoop (p : PathParams) (mem : Bytes) (ws : List Window) : Nat → Bytes
  | 0 => mem
  | i + 1 =>
    match ws[i]? with
    | none => mem
    | some w =>
      if p.conv w.len ≠ p.cl then mem.set (w.off + w.len) 0
      else match successorBytesFixedWidth (w.read mem) with
        | some _ => mem
        | none => successorPathMemLoop p mem ws i

/-- Memory after `SuccessorPath`, `/repo/utils/successor.go:11-32`. -/
def successorPathMem (p : PathParams) (mem : Bytes) (ws : List Window) : Bytes :=
  if ws.length = 0 then mem
  else if p.conv ws.length < p.cc then mem
  else successorPathMemLoop p mem ws ws.length

/-- A key of the tree built by `InitKDTree` (`/repo/PinaGoladaStore/StoreDriver.go:69-88`): path and
subspace are the slices that `DecodeKey` made of the stored key `mem`. -/
structure HeldKey where
  mem : Bytes
  path : List Window
  subspace : Window
  time : UInt64
  fingerprint : Bytes
deriving Repr, DecidableEq

/-- What the tree sees of a key. -/
def HeldKey.key (h : HeldKey) : KdKey :=
  ⟨⟨h.subspace.read h.mem, h.path.map (·.read h.mem), h.time⟩, h.fingerprint⟩

/-- The key that `InitKDTree`, `/repo/PinaGoladaStore/StoreDriver.go:69-88`, makes of the stored key
`encodeKey p pos` with the slices of `DecodeKey`
(`/repo/pkg/data_model/kv_driver/key_utilities.go:36-53`). Simplification: every stored key is in a buffer of
its own (the case of one buffer for all is C118). -/
def heldKey (p : PathParams) (pos : Position) (fingerprint : Bytes) : HeldKey :=
  let w := keyWindows p (encodeKey p pos) pos ⟨0, [], []⟩
  { mem := encodeKey p pos, path := w.path, subspace := w.subspace, time := pos.time, fingerprint := fingerprint }

/-- `KDTreeStorage.Get`, `/repo/pkg/data_model/datamodeltypes/entryDriverTypes.go:27-69`, for the subspace and
the path of the key `h` of the tree `pre ++ h :: post`: the key after the call, and the result. The range
shares the subspace and the path with the key; the end of the subspace range is a copy made before the
successor of the path. -/
def storageGetHeld (lib : KdLib) (p : PathParams) (pre : List HeldKey) (h : HeldKey) (post : List HeldKey) :
    Res (HeldKey × Option Position) := do
  let subspaceEnd := successorSubspaceId h.key.pos.subspace
  let pathEnd ← successorPath h.key.pos.path p
  let h := { h with mem := successorPathMem p h.mem h.path }
  let range3d : Range3d := { subspace := ⟨h.key.pos.subspace, subspaceEnd, false⟩,
                             path := ⟨h.key.pos.path, pathEnd.getD [], false⟩, time := ⟨0, 2, true⟩ }
  match lib.query ((pre ++ h :: post).map HeldKey.key) range3d with
  | [] => .ok (h, none)
  | [k] => .ok (h, some k.pos)
  | _ => .crash

/-- `EntryDriver.Get`, `/repo/pkg/data_model/entry_driver/entry_driver.go:56-92`, for the subspace and the path of
the key `h` of the tree `pre ++ h :: post`. -/
def entryGetHeld (env : StoreEnv) (kv : KV) (pre : List HeldKey) (h : HeldKey) (post : List HeldKey) :
    Res (HeldKey × GetRes) := do
  let (h, entryExists) ← storageGetHeld env.lib env.p pre h post
  match entryExists with
  | none => .ok (h, .missing)
  | some pos =>
    match kv.get (encodeKey env.p pos) with
    | none => .ok (h, .error)
    | some entryBytes => do
      let value ← decodeValues entryBytes
      .ok (h, .found { namespaceId := env.namespaceId, subspaceId := h.key.pos.subspace, path := h.key.pos.path,
                       payloadDigest := value.payloadDigest, payloadLength := value.payloadLength,
                       timestamp := pos.time } value.authDigest)

/-- The loop of `PrunableEntries`, `/repo/pkg/data_model/store/store.go:257-268`, when the candidates are keys of
the tree: `pre` the keys already passed, the others still to come; keys that are no candidates are passed
over. `none` is the returned error. Simplification: the candidates come in the order of the tree. -/
def prunableHeldLoop (env : StoreEnv) (kv : KV) (time : UInt64) (candidate : HeldKey → Bool) (pre : List HeldKey) :
    List HeldKey → Res (List HeldKey × Option (List (Entry × Bytes)))
  | [] => .ok (pre, some [])
  | h :: rest =>
    if candidate h ∧ h.time < time then do
      let (h, r) ← entryGetHeld env kv pre h rest
      match r with
      | .found e a => do
        let (kd, more) ← prunableHeldLoop env kv time candidate (pre ++ [h]) rest
        .ok (kd, more.map ((e, a) :: ·))
      | _ => .ok (pre ++ h :: rest, none)
    else prunableHeldLoop env kv time candidate (pre ++ [h]) rest

/-- An area whose path and subspace are slices of one buffer, as `DecodeStreamAreaInArea`
(`/repo/utils/areas.go:435-533`) returns it with a scheme that copies nothing
(`/repo/pkg/data_model/store/test_schemes.go:43-62`). -/
structure HeldArea where
  subspace : Window
  anySubspace : Bool
  path : List Window
  times : GRange UInt64

/-- The area that the caller sees. -/
def HeldArea.area (mem : Bytes) (a : HeldArea) : Area :=
  { subspace := a.subspace.read mem, anySubspace := a.anySubspace, path := a.path.map (·.read mem), times := a.times }

/-- `AreaTo3dRange`, `/repo/utils/areas.go:152-199`, on an area in a buffer: the buffer after the call, and the
range as it is read then. The successor of the subspace is computed first; the start of the subspace
range and the components of the start of the path range are those of the area. -/
def areaTo3dRangeMem (minimal : Bytes) (succ : Bytes → Bytes) (p : PathParams) (mem : Bytes) (a : HeldArea) :
    Res (Bytes × Range3d) := do
  let subspaceEnd := succ (a.subspace.read mem)
  let endPath ← successorPrefix (a.path.map (·.read mem)) p
  let after := successorPrefixMem p mem a.path
  let subspaceRange : GRange Bytes :=
    if !a.anySubspace then { start := a.subspace.read after, stop := subspaceEnd, openEnd := false }
    else { start := minimal, stop := [], openEnd := true }
  let stop := endPath.getD []
  .ok (after, { subspace := subspaceRange,
                path := { start := a.path.map (·.read after), stop := stop, openEnd := stop.length == 0 },
                time := a.times })

end Willow
