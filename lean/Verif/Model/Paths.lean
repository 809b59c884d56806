import Verif.Model.Order
import Verif.Model.Encoding

/-! Model of `/repo/utils/paths.go` (the functions that do not read from a stream). -/

namespace Willow

/-- `PrefixesOf`, `/repo/utils/paths.go:12-18`. -/
def prefixesOf (path : Path) : List Path :=
  [] :: (List.range path.length).map fun i => path.take (i + 1)

/-- The Go conversion `int(x)` of a 64-bit (or narrower) unsigned value. -/
def goInt (x : Nat) : Int := if x < 2 ^ 63 then x else (x : Int) - 2 ^ 64

/-- The loop of `IsValidPath` (`/repo/utils/paths.go:31-37`): `none` when a component is too
long, otherwise the total number of bytes. -/
def isValidPathLoop (cl : Int) : Nat → Path → Option Nat
  | total, [] => some total
  | total, c :: cs => if (c.length : Int) > cl then none else isValidPathLoop cl (total + c.length) cs

/-- `IsValidPath`, `/repo/utils/paths.go:20-41`. Only the boolean result is modelled (the
error is non-nil exactly when it is false). -/
def isValidPath (path : Path) (p : PathParams) : Bool :=
  if (path.length : Int) > goInt p.cc then false
  else match isValidPathLoop (goInt p.cl) 0 path with
    | none => false
    | some total => if (total : Int) > goInt p.pl then false else true

/-- The loop of `IsPathPrefixed` (`/repo/utils/paths.go:51-56`). -/
def isPathPrefixedLoop : Path → Path → Bool
  | [], _ => true
  | _ :: _, [] => false
  | c :: cs, d :: ds => if orderBytes c d ≠ .eq then false else isPathPrefixedLoop cs ds

/-- `IsPathPrefixed`, `/repo/utils/paths.go:43-58`. Only the boolean result is modelled. -/
def isPathPrefixed (pre path : Path) : Bool :=
  if pre.length > path.length then false else isPathPrefixedLoop pre path

/-- The index loop of `CommonPrefix` (`/repo/utils/paths.go:65-72`). -/
def commonPrefixIndex : Path → Path → Nat
  | c :: cs, d :: ds => if orderBytes c d ≠ .eq then 0 else commonPrefixIndex cs ds + 1
  | _, _ => 0

/-- `CommonPrefix`, `/repo/utils/paths.go:60-77`: an error when no component is shared. -/
def commonPrefix (first second : Path) : Res Path :=
  let index := commonPrefixIndex first second
  if index = 0 then .err else slice first 0 index

/-- The loop of `EncodePath` (`/repo/utils/paths.go:87-91`). -/
def encodeComponents (p : PathParams) : Path → Bytes
  | [] => []
  | c :: cs => encodeIntMax32 (p.conv c.length) p.cl ++ c ++ encodeComponents p cs

/-- `EncodePath`, `/repo/utils/paths.go:84-93`. -/
def encodePath (p : PathParams) (path : Path) : Bytes :=
  encodeIntMax32 (p.conv path.length) p.cc ++ encodeComponents p path

/-- The loop of `DecodePath` (`/repo/utils/paths.go:117-127`), run `n` more times. A failed
`DecodeIntMax32` is `log.Fatalf`. -/
def decodePathLoop (p : PathParams) (enc : Bytes) : Nat → Nat → Path → Res (Nat × Path)
  | 0, pos, path => .ok (pos, path)
  | n + 1, pos, path => do
    let w := getWidthMax32Int p.cl
    let lengthBytes ← slice enc pos (pos + w)
    match decodeIntMax32 lengthBytes p.cl with
    | .ok len =>
      let comp ← slice enc (pos + w) (pos + w + len)
      decodePathLoop p enc n (pos + w + len) (path ++ [comp])
    | _ => .crash

/-- `DecodePath`, `/repo/utils/paths.go:104-129`. -/
def decodePath (p : PathParams) (enc : Bytes) : Res (Nat × Path) := do
  let w := getWidthMax32Int p.cc
  let countBytes ← slice enc 0 w
  let count ← decodeIntMax32 countBytes p.cc
  decodePathLoop p enc count w []

/-- `EncodePathLength`, `/repo/utils/paths.go:131-143` (the final conversion to `uint64` is
the identity for lengths that fit in memory). -/
def encodePathLength (p : PathParams) (path : Path) : Nat :=
  path.foldl (fun len c => len + getWidthMax32Int p.cl + c.length) (getWidthMax32Int p.cc)

/-- `EncodeRelativePath`, `/repo/utils/paths.go:145-156`. -/
def encodeRelativePath (p : PathParams) (toEncode reference : Path) : Res Bytes :=
  match commonPrefix toEncode reference with
  | .ok longest => do
    let suffix ← sliceFrom toEncode longest.length
    .ok (encodeIntMax32 (p.conv longest.length) p.cc ++ encodePath p suffix)
  | _ => .crash

/-- `DecodeRelativePath`, `/repo/utils/paths.go:187-206`, value view (see
`Verif/Model/Slices.lean` for the effect on the reference). -/
def decodeRelativePath (p : PathParams) (enc : Bytes) (reference : Path) : Res Path := do
  let w := getWidthMax32Int p.cc
  let lenBytes ← slice enc 0 w
  match decodeIntMax32 lenBytes p.cc with
  | .ok prefixLength =>
    let pre ← slice reference 0 prefixLength
    let rest ← sliceFrom enc w
    match decodePath p rest with
    | .ok (_, suffix) => .ok (pre ++ suffix)
    | .block => .block
    | _ => .crash
  | _ => .crash

/-- `EncodePathRelativeLength`, `/repo/utils/paths.go:225-235`. -/
def encodePathRelativeLength (p : PathParams) (primary reference : Path) : Res Nat :=
  match commonPrefix primary reference with
  | .ok longest => do
    let suffix ← sliceFrom primary longest.length
    .ok (getWidthMax32Int p.cc + suffix.length)
  | _ => .crash

/-- Inner loop of `PathDistance` (`/repo/utils/paths.go:265-283`): a missing byte is 0. -/
def bytesDistance : Bytes → Bytes → Int
  | [], [] => 0
  | a :: as, [] => (a.toNat : Int) * a.toNat + bytesDistance as []
  | [], b :: bs => (b.toNat : Int) * b.toNat + bytesDistance [] bs
  | a :: as, b :: bs =>
    ((a.toNat : Int) - b.toNat) * ((a.toNat : Int) - b.toNat) + bytesDistance as bs

/-- `PathDistance`, `/repo/utils/paths.go:238-286`: a missing component is empty. The Go
`int` result does not overflow for paths that fit in memory. -/
def pathDistance : Path → Path → Int
  | [], [] => 0
  | a :: as, [] => bytesDistance a [] + pathDistance as []
  | [], b :: bs => bytesDistance [] b + pathDistance [] bs
  | a :: as, b :: bs => bytesDistance a b + pathDistance as bs

end Willow
