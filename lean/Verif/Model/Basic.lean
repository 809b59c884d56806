/-!
Basic notions shared by the model of `/repo` (willow-go).
-/

namespace Willow

/-- Go `[]byte` and `string` seen as a value: ids and digests (`/repo/types/paths.go:6-10`), path
components (`/repo/types/paths.go:4`). Simplification: the nil slice and the empty slice are identified;
aliasing is modelled separately in `Verif/Model/Slices.lean`. -/
abbrev Bytes := List UInt8

/-- `types.Path`, a slice of byte slices (`/repo/types/paths.go:3-4`). -/
abbrev Path := List Bytes

/-- Outcome of running a Go function.
* `ok a`: it returned `a` (with a nil error, if it returns an error);
* `err`: it returned a non-nil error;
* `crash`: the process ended or the goroutine panicked (`log.Fatal`, index or slice
  bounds out of range, nil map write). Where bytes come from a stream, slices beyond the
  length but within the capacity are modelled (`sliceArray`); elsewhere they are also
  represented as a crash: in Go they expose bytes that are not part of the value;
* `block`: it waits forever. -/
inductive Res (α : Type) where
  | ok (a : α)
  | err
  | crash
  | block
deriving Repr, DecidableEq

namespace Res

@[inline] def bind {α β : Type} : Res α → (α → Res β) → Res β
  | ok a, f => f a
  | err, _ => err
  | crash, _ => crash
  | block, _ => block

instance : Monad Res where
  pure := ok
  bind := bind

def map' {α β : Type} (f : α → β) (r : Res α) : Res β := r.bind fun a => ok (f a)

@[simp] theorem pure_eq {α : Type} (a : α) : (pure a : Res α) = ok a := rfl
@[simp] theorem ok_bind {α β : Type} (a : α) (f : α → Res β) : (ok a >>= f) = f a := rfl
@[simp] theorem err_bind {α β : Type} (f : α → Res β) : ((err : Res α) >>= f) = err := rfl
@[simp] theorem crash_bind {α β : Type} (f : α → Res β) : ((crash : Res α) >>= f) = crash := rfl
@[simp] theorem block_bind {α β : Type} (f : α → Res β) : ((block : Res α) >>= f) = block := rfl

theorem bind_eq_ok {α β : Type} {r : Res α} {f : α → Res β} {b : β} :
    (r >>= f) = ok b ↔ ∃ a, r = ok a ∧ f a = ok b := by
  cases r <;> simp

end Res

/-- The Go slice expression `b[i:j]` on a value: panics unless `i ≤ j ≤ len b`. -/
def slice {α : Type} (b : List α) (i j : Nat) : Res (List α) :=
  if i ≤ j ∧ j ≤ b.length then .ok ((b.drop i).take (j - i)) else .crash

/-- The Go slice expression `b[i:]`. -/
def sliceFrom {α : Type} (b : List α) (i : Nat) : Res (List α) := slice b i b.length

/-- `types.PathParams[T]` (`/repo/types/parameters.go:5-14`): the three limits, values of an unsigned
Go type with `bits` bits (8 in the tests, 64 in the application). -/
structure PathParams where
  bits : Nat
  cc : Nat
  cl : Nat
  pl : Nat
  hbits : bits ≤ 64 := by decide
  hcc : cc < 2 ^ bits := by decide
  hcl : cl < 2 ^ bits := by decide
  hpl : pl < 2 ^ bits := by decide

/-- The Go conversion `T(x)` of a non-negative `int` to the unsigned type `T`. -/
def PathParams.conv (p : PathParams) (x : Nat) : Nat := x % 2 ^ p.bits

/-- `types.Range[T]` (`/repo/types/ranges.go:5-8`). -/
structure GRange (α : Type) where
  start : α
  stop : α
  openEnd : Bool
deriving Repr, DecidableEq

/-- `types.Range3d` (`/repo/types/ranges.go:10-14`). -/
structure Range3d where
  subspace : GRange Bytes
  path : GRange Path
  time : GRange UInt64
deriving Repr, DecidableEq

/-- `types.Position3d` (`/repo/types/ranges.go:16-20`). -/
structure Position where
  subspace : Bytes
  path : Path
  time : UInt64
deriving Repr, DecidableEq

/-- `types.Area` (`/repo/types/areas.go:3-8`). -/
structure Area where
  subspace : Bytes
  anySubspace : Bool
  path : Path
  times : GRange UInt64
deriving Repr, DecidableEq

/-- `types.AreaOfInterest` (`/repo/types/areas.go:10-14`). -/
structure AreaOfInterest where
  area : Area
  maxCount : UInt64
  maxSize : UInt64
deriving Repr, DecidableEq

/-- `types.Entry` (`/repo/types/entry.go:4-17`). -/
structure Entry where
  namespaceId : Bytes
  subspaceId : Bytes
  path : Path
  payloadDigest : Bytes
  payloadLength : UInt64
  timestamp : UInt64
deriving Repr, DecidableEq

end Willow
