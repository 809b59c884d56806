import Verif.Model.Kv
import Verif.Model.Slices

/-! Model of `ListValues` of `/repo/pkg/data_model/kv_driver/kv_driver_pebble.go` with the memory of
the iterator: `iter.Key()` returns a slice of a buffer that the iterator uses again for the next key
(contract of the pebble library: the slice must not be used after the iterator moved), and `DecodeKey`
(`/repo/pkg/data_model/kv_driver/key_utilities.go:36-53`) copies nothing. -/

namespace Willow

/-- The windows of the components of a path that `DecodePath` found at `off` of its input
(`/repo/utils/paths.go:117-127`); the count of the components comes before them. -/
def componentWindows (p : PathParams) : Path → Nat → List Window
  | [], _ => []
  | c :: rest, off =>
    let w := getWidthMax32Int p.cl
    ⟨off + w, c.length⟩ :: componentWindows p rest (off + w + c.length)

/-- An entry in the result of `ListValues`: what was copied, and the windows of the iterator's buffer
that are its path and its subspace (`/repo/pkg/data_model/kv_driver/kv_driver_pebble.go:232-239`). -/
structure Listed where
  timestamp : UInt64
  value : Values
  path : List Window
  subspace : Window
deriving Repr, DecidableEq

/-- The slices of `DecodeKey`, `/repo/pkg/data_model/kv_driver/key_utilities.go:36-53`, for a key
decoded to `pos`. -/
def keyWindows (p : PathParams) (key : Bytes) (pos : Position) (value : Values) : Listed :=
  { timestamp := pos.time, value := value
    path := componentWindows p pos.path (8 + getWidthMax32Int p.cc)
    subspace := ⟨key.length - pos.subspace.length, pos.subspace.length⟩ }

/-- The loop of `ListValues`, `/repo/pkg/data_model/kv_driver/kv_driver_pebble.go:184-243`, with the
iterator's buffer: the slices listed, and the buffer at the end. Simplification: the buffer is large
enough for every key, so that it is never replaced. -/
def listValuesMemLoop (p : PathParams) (aoi : AreaOfInterest) :
    List (Bytes × Bytes) → Bytes → List Listed → UInt64 → Res (List Listed × Bytes)
  | [], buffer, values, _ => .ok (values, buffer)
  | (key, val) :: rest, old, values, payloadLength => do
    let buffer := key ++ old.drop key.length
    let pos ← decodeKey p key
    if pos.time > aoi.area.times.stop ∨ orderSubspace pos.subspace aoi.area.subspace ≠ .eq ∨
        pos.path.length < aoi.area.path.length then
      listValuesMemLoop p aoi rest buffer values payloadLength
    else if orderPath (pos.path.take aoi.area.path.length) aoi.area.path ≠ .eq then
      listValuesMemLoop p aoi rest buffer values payloadLength
    else if (aoi.maxCount > 0 ∧ (values.length : Int) ≥ goInt aoi.maxCount.toNat) ∨
        pos.time < aoi.area.times.start then
      .ok (values, buffer)
    else do
      let value ← decodeValues val
      let total := payloadLength + value.payloadLength
      if aoi.maxSize > 0 ∧ total ≥ aoi.maxSize then .ok (values, buffer)
      else listValuesMemLoop p aoi rest buffer (values ++ [keyWindows p key pos value]) total

/-- The entry that a caller of `ListValues` sees when the buffer has these contents. -/
def Listed.read (mem : Bytes) (namespaceId : Bytes) (l : Listed) : Entry :=
  { namespaceId := namespaceId, subspaceId := l.subspace.read mem, path := l.path.map (·.read mem),
    payloadDigest := l.value.payloadDigest, payloadLength := l.value.payloadLength, timestamp := l.timestamp }

/-- `ListValues`, `/repo/pkg/data_model/kv_driver/kv_driver_pebble.go:163-245`, as its caller sees it,
with an iterator whose buffer first holds `buffer`. -/
def listValuesMem (p : PathParams) (kv : KV) (aoi : AreaOfInterest) (namespaceId : Bytes) (buffer : Bytes) : Res (List Entry) := do
  let (values, mem) ← listValuesMemLoop p aoi kv.reverse buffer [] 0
  .ok (values.map (Listed.read mem namespaceId))

end Willow
