import Verif.Model.Paths

/-! Sequential view of `/repo/utils/growing_bytes.go` and the stream decoders of
`/repo/utils/paths.go`. The receiving goroutine is represented by a list of chunks that have
not arrived yet and a schedule saying how many of them arrive before each request; the
locking and waking protocol is the subject of `Verif/Model/GrowingBytes.lean`. -/

namespace Willow

/-- What is known of the memory after the bytes of `Array` (`/repo/utils/growing_bytes.go:21`): how many bytes
there is still room for, and for each new array that `append` will make, how many bytes more than needed it has
room for. The latter is left open, as Go does (Go 1.22 makes arrays of 8 bytes for up to 8, for instance). -/
structure Mem where
  spare : Nat
  room : List Nat
deriving Repr, DecidableEq

/-- Arrays that have room for their bytes only. -/
def Mem.exact : Mem := ⟨0, []⟩

/-- `append` of `n` bytes (`/repo/utils/growing_bytes.go:47`): in place if there is room, otherwise with a new
array. -/
def Mem.append (m : Mem) (n : Nat) : Mem :=
  if n ≤ m.spare then { m with spare := m.spare - n } else ⟨m.room.headD 0, m.room.tail⟩

/-- `GrowingBytes` (`/repo/utils/growing_bytes.go:17-23`): the accumulated bytes, the chunks
still to come, for each request the number of chunks that arrive just before it, and the memory after the
accumulated bytes. -/
structure GB where
  buf : Bytes
  rest : List Bytes
  sched : List Nat
  mem : Mem
deriving Repr, DecidableEq

/-- `k` chunks arrive (`/repo/utils/growing_bytes.go:45-48`). -/
def GB.absorb : Nat → GB → GB
  | 0, g => g
  | _ + 1, ⟨buf, [], s, m⟩ => ⟨buf, [], s, m⟩
  | k + 1, ⟨buf, c :: cs, s, m⟩ => GB.absorb k ⟨buf ++ c, cs, s, m.append c.length⟩

/-- Chunks arrive until at least `n` bytes are there. -/
def GB.pull (n : Nat) (buf : Bytes) (m : Mem) : List Bytes → Option (Bytes × List Bytes × Mem)
  | [] => if buf.length ≥ n then some (buf, [], m) else none
  | c :: cs => if buf.length ≥ n then some (buf, c :: cs, m) else GB.pull n (buf ++ c) (m.append c.length) cs

/-- A computation that reads from the stream. -/
def Dec (α : Type) := GB → Res (α × GB)

namespace Dec

def bind {α β : Type} (d : Dec α) (f : α → Dec β) : Dec β := fun g =>
  match d g with
  | .ok (a, g') => f a g'
  | .err => .err
  | .crash => .crash
  | .block => .block

instance : Monad Dec where
  pure a := fun g => .ok (a, g)
  bind := bind

/-- A computation that does not touch the stream. -/
def lift {α : Type} (r : Res α) : Dec α := fun g => r.map' (·, g)

/-- The Go idiom `x, _ := f()`: on error the zero value is used. -/
def liftD {α : Type} (r : Res α) (zero : α) : Dec α := fun g =>
  match r with
  | .ok a => .ok (a, g)
  | .err => .ok (zero, g)
  | .crash => .crash
  | .block => .block

end Dec

/-- `NextAbsolute`, `/repo/utils/growing_bytes.go:73-97`: waits until at least `n` bytes are
there and returns all of them. -/
def nextAbsolute (n : Nat) : Dec Bytes := fun g =>
  let g1 := GB.absorb (g.sched.headD 0) g
  match GB.pull n g1.buf g1.mem g1.rest with
  | some (buf, rest, mem) => .ok (buf, ⟨buf, rest, g.sched.tail, mem⟩)
  | none => .block

/-- The Go slice expression `acc[i:j]`, where `acc` is what the last call of `NextAbsolute` returned: it panics
unless `i ≤ j` and `j` is within the capacity. Between the length and the capacity are zero bytes, since nothing
has been written there. Simplification: no chunk arrives between the call of `NextAbsolute` and this. -/
def sliceArray (acc : Bytes) (i j : Nat) : Dec Bytes := fun g =>
  if i ≤ j ∧ j ≤ acc.length + g.mem.spare then
    .ok (((acc ++ List.replicate g.mem.spare 0).drop i).take (j - i), g)
  else .crash

/-- `Prune`, `/repo/utils/growing_bytes.go:100-109`: an empty array has no room. -/
def prune (n : Nat) : Dec Unit := fun g =>
  .ok ((), { g with buf := g.buf.drop n, mem := if n ≥ g.buf.length then { g.mem with spare := 0 } else g.mem })

/-- Loop of `DecodePathStream` (`/repo/utils/paths.go:170-183`), run `n` more times. The second
wait is for twice the width of the length field, not for the component. -/
def decodePathStreamLoop (p : PathParams) : Nat → Path → Dec Path
  | 0, path => pure path
  | n + 1, path => do
    let w := getWidthMax32Int p.cl
    let acc ← nextAbsolute w
    let lengthBytes ← sliceArray acc 0 w
    let len ← Dec.liftD (decodeIntMax32 lengthBytes p.cl) 0
    let acc ← nextAbsolute (w + w)
    let comp ← sliceArray acc w (w + len)
    prune (w + len)
    decodePathStreamLoop p n (path ++ [comp])

/-- `DecodePathStream`, `/repo/utils/paths.go:158-185`. -/
def decodePathStream (p : PathParams) : Dec Path := do
  let w := getWidthMax32Int p.cc
  let acc ← nextAbsolute w
  let countBytes ← sliceArray acc 0 w
  let count ← Dec.liftD (decodeIntMax32 countBytes p.cc) 0
  prune w
  decodePathStreamLoop p count []

/-- `DecodeRelPathStream`, `/repo/utils/paths.go:208-223`. -/
def decodeRelPathStream (p : PathParams) (reference : Path) : Dec Path := do
  let w := getWidthMax32Int p.cc
  let acc ← nextAbsolute w
  let lenBytes ← sliceArray acc 0 w
  let prefixLength ← Dec.liftD (decodeIntMax32 lenBytes p.cc) 0
  let pre ← Dec.lift (slice reference 0 prefixLength)
  prune w
  let suffix ← decodePathStream p
  return pre ++ suffix

end Willow
