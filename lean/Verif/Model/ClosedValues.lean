import Verif.Model.Kv
import Verif.Model.Slices

/-! Model of reading from the database with the memory of the values: pebble gives back a slice of its own memory and a
closer, and the slice must not be used once the closer was closed (contract of the library), since the memory may be used
again for what is read next. `/repo/pkg/data_model/kv_driver/kv_driver_pebble.go` closes the closer before it returns the
slice. -/

namespace Willow

/-- The memory of the library: the buffers that it ever made, and those given back, the last one first. -/
structure Heap where
  bufs : List Bytes
  free : List Nat
deriving Repr, DecidableEq

/-- A slice of the first `len` bytes of a buffer. -/
structure Ref where
  slot : Nat
  len : Nat
deriving Repr, DecidableEq

/-- What a slice shows. -/
def Heap.read (h : Heap) (r : Ref) : Bytes := (h.bufs.getD r.slot []).take r.len

/-- The library puts a value in a buffer: in the one last given back if memory is used again, else in a new one.
Simplification: buffers are large enough for every value. -/
def Heap.load (reuse : Bool) (v : Bytes) (h : Heap) : Ref × Heap :=
  match (if reuse then h.free else []) with
  | [] => (⟨h.bufs.length, v.length⟩, { h with bufs := h.bufs ++ [v] })
  | slot :: rest => (⟨slot, v.length⟩, ⟨h.bufs.set slot (v ++ (h.bufs.getD slot []).drop v.length), rest⟩)

/-- `closer.Close()`. -/
def Heap.close (r : Ref) (h : Heap) : Heap := { h with free := r.slot :: h.free }

/-- `Get`, `/repo/pkg/data_model/kv_driver/kv_driver_pebble.go:70-77`: the slice is returned after its closer was closed;
`none` is the error "pebble: not found". -/
def driverGetMem (reuse : Bool) (kv : KV) (key : Bytes) (h : Heap) : Option (Ref × Heap) :=
  match kv.get key with
  | none => none
  | some v =>
    let (r, h) := h.load reuse v
    some (r, h.close r)

/-- `GetMultipleValues`, `/repo/pkg/data_model/kv_driver/kv_driver_pebble.go:151-161`: the slices and the memory at the
end. -/
def getMultipleValuesMem (reuse : Bool) (kv : KV) : List Bytes → Heap → Option (List Ref × Heap)
  | [], h => some ([], h)
  | key :: rest, h =>
    match driverGetMem reuse kv key h with
    | none => none
    | some (r, h) =>
      match getMultipleValuesMem reuse kv rest h with
      | none => none
      | some (rs, h) => some (r :: rs, h)

/-- What the caller of `GetMultipleValues` sees. -/
def getMultipleSeen (reuse : Bool) (kv : KV) (keys : List Bytes) (h : Heap) : Option (List Bytes) :=
  (getMultipleValuesMem reuse kv keys h).map fun (rs, h) => rs.map h.read

/-- The loop of `ListAllValues`, `/repo/pkg/data_model/kv_driver/kv_driver_pebble.go:131-142`, over the remaining pairs:
the length of each key, which is a slice of the iterator's buffer, the slice of each value, the buffer and the memory at
the end. The iterator puts each key in the buffer that held the one before it if memory is used again; else each key has its
own, and the buffers stand in the list in place of the lengths. -/
def listAllValuesMem (reuse : Bool) (kv : KV) : List (Bytes × Bytes) → Bytes → Heap → Option (List ((Bytes × Nat) × Ref) × Bytes × Heap)
  | [], buffer, h => some ([], buffer, h)
  | (key, _) :: rest, old, h =>
    let buffer := key ++ old.drop key.length
    match driverGetMem reuse kv key h with
    | none => none
    | some (r, h) =>
      match listAllValuesMem reuse kv rest buffer h with
      | none => none
      | some (more, last, h) => some (((buffer, key.length), r) :: more, last, h)

/-- What the caller of `ListAllValues` (`/repo/pkg/data_model/kv_driver/kv_driver_pebble.go:112-144`) sees. -/
def listAllSeen (reuse : Bool) (kv : KV) (buffer : Bytes) (h : Heap) : Option (List (Bytes × Bytes)) :=
  (listAllValuesMem reuse kv kv buffer h).map fun (found, last, h) =>
    found.map fun ((own, len), r) => ((if reuse then last else own).take len, h.read r)

/-- The first line of `Increment`, `/repo/pkg/data_model/payload_kv_driver/payload_ref_counter.go:29`: the count of the
digest is read, if there is one. -/
def incrementBegin (reuse : Bool) (refs : KV) (digest : Bytes) (h : Heap) : Option Ref × Heap :=
  match driverGetMem reuse refs digest h with
  | none => (none, h)
  | some (r, h) => (some r, h)

/-- The rest of `Increment`, `/repo/pkg/data_model/payload_kv_driver/payload_ref_counter.go:30-42`. -/
def incrementEnd (refs : KV) (digest : Bytes) (found : Option Ref) (h : Heap) : Res (UInt64 × KV) := do
  let currCount ← (match found with
    | none => (.ok 1 : Res UInt64)
    | some r => (bigEndianUint64 (h.read r)).map' (· + 1))
  .ok (currCount, refs.set digest (putU64 currCount.toNat))

end Willow
