import Verif.Model.Paths

/-! Model of `/repo/utils/successor.go`. A nil path result is `none`. -/

namespace Willow

/-- Sum of the component lengths, `/repo/utils/successor.go:56-59`. -/
def totalLength (path : Path) : Nat := (path.map List.length).sum

/-- `PathAppend`, `/repo/utils/successor.go:52-65`. `log.Fatal` is a crash. -/
def pathAppend (path : Path) (component : Bytes) (p : PathParams) : Res Path :=
  if p.conv (path.length + 1) > p.cc then .crash
  else if p.conv (component.length + totalLength path) > p.pl then .crash
  else .ok (path ++ [component])

/-- `TryAppendZeroByte`, `/repo/utils/successor.go:68-74`. -/
def tryAppendZeroByte (component : Bytes) (p : PathParams) : Option Bytes :=
  if p.conv component.length = p.cl then none else some (component ++ [0])

/-- `PrefixSuccessor`, `/repo/utils/successor.go:77-85`, value view (the in-place effect is in
`Verif/Model/Slices.lean`). The loop runs from index `i-1` down. -/
def prefixSuccessorLoop (component : Bytes) : Nat → Option Bytes
  | 0 => none
  | i + 1 =>
    match component[i]? with
    | some b => if b ≠ 255 then some (component.take i ++ [b + 1]) else prefixSuccessorLoop component i
    | none => none

/-- `PrefixSuccessor`, `/repo/utils/successor.go:77-85`. -/
def prefixSuccessor (component : Bytes) : Option Bytes :=
  prefixSuccessorLoop component component.length

/-- Loop of `SuccessorBytesFixedWidth` (`/repo/utils/successor.go:94-107`): from index `i-1`
down, bytes that are 255 become 0 until one can be incremented. -/
def successorBytesLoop (newBytes : Bytes) : Nat → Option Bytes
  | 0 => none
  | i + 1 =>
    match newBytes[i]? with
    | some b => if b ≥ 255 then successorBytesLoop (newBytes.set i 0) i else some (newBytes.set i (b + 1))
    | none => none

/-- `SuccessorBytesFixedWidth`, `/repo/utils/successor.go:88-114`. -/
def successorBytesFixedWidth (bytes : Bytes) : Option Bytes :=
  successorBytesLoop bytes bytes.length

/-- Loop of `SuccessorPath` (`/repo/utils/successor.go:21-30`) from index `i-1` down. -/
def successorPathLoop (path : Path) (p : PathParams) : Nat → Res (Option Path)
  | 0 => .ok none
  | i + 1 =>
    match path[i]? with
    | none => .crash
    | some c =>
      match tryAppendZeroByte c p with
      | some nc => (pathAppend (path.take i) nc p).map' some
      | none =>
        match successorBytesFixedWidth c with
        | some nc => (pathAppend path nc p).map' some
        | none => successorPathLoop path p i

/-- `SuccessorPath`, `/repo/utils/successor.go:11-32`. -/
def successorPath (path : Path) (p : PathParams) : Res (Option Path) :=
  if path.length = 0 then .ok (some [[]])
  else if p.conv path.length < p.cc then (pathAppend path [] p).map' some
  else successorPathLoop path p path.length

/-- Loop of `SuccessorPrefix` (`/repo/utils/successor.go:38-47`) from index `i-1` down. -/
def successorPrefixLoop (path : Path) (p : PathParams) : Nat → Res (Option Path)
  | 0 => .ok none
  | i + 1 =>
    match path[i]? with
    | none => .crash
    | some c =>
      match tryAppendZeroByte c p with
      | some nc => (pathAppend (path.take i) nc p).map' some
      | none =>
        match prefixSuccessor c with
        | some nc => (pathAppend (path.take i) nc p).map' some
        | none => successorPrefixLoop path p i

/-- `SuccessorPrefix`, `/repo/utils/successor.go:35-49`. -/
def successorPrefix (path : Path) (p : PathParams) : Res (Option Path) :=
  successorPrefixLoop path p path.length

/-- What `PrefixSuccessor` (`/repo/utils/successor.go:80`) leaves in the caller's slice: the
`append` to `component[:i]` always has room, so it overwrites byte `i` in place. -/
def prefixSuccessorMutatedLoop (component : Bytes) : Nat → Bytes
  | 0 => component
  | i + 1 =>
    match component[i]? with
    | some b => if b ≠ 255 then component.set i (b + 1) else prefixSuccessorMutatedLoop component i
    | none => component

/-- The caller's component after `PrefixSuccessor(component)`. -/
def prefixSuccessorMutated (component : Bytes) : Bytes :=
  prefixSuccessorMutatedLoop component component.length

/-- The caller's path after the loop of `SuccessorPrefix`. The copy made at
`/repo/utils/successor.go:36-37` is shallow: the components are shared with the caller. The
effect of `append(component, 0)` on memory beyond the length of the component is not seen
in this view (see `Verif/Model/Slices.lean`). -/
def successorPrefixMutatedLoop (path : Path) (p : PathParams) : Nat → Path
  | 0 => path
  | i + 1 =>
    match path[i]? with
    | none => path
    | some c =>
      match tryAppendZeroByte c p with
      | some _ => path
      | none =>
        match prefixSuccessor c with
        | some _ => path.set i (prefixSuccessorMutated c)
        | none => successorPrefixMutatedLoop path p i

/-- The caller's path after `SuccessorPrefix(path)`. -/
def successorPrefixMutated (path : Path) (p : PathParams) : Path :=
  successorPrefixMutatedLoop path p path.length

/-- `SuccessorSubspaceId`, `/repo/utils/successor.go:116-123`. -/
def successorSubspaceId (subspace : Bytes) : Bytes := subspace ++ [0]

end Willow
