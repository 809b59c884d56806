import Verif.Model.Successor
import Verif.Model.Stream

/-! Effects of Go's `append` on memory shared with the caller. -/

namespace Willow

/-- A Go slice `arr[0:len]` whose capacity is the length of `arr`. -/
structure Sl (α : Type) where
  arr : List α
  len : Nat
deriving Repr, DecidableEq

/-- The elements the owner of the slice sees. -/
def Sl.view {α : Type} (s : Sl α) : List α := s.arr.take s.len

/-- `append(s[0:k], suffix...)`: writes into the shared array when the capacity suffices,
otherwise copies. Returns the new array of the original slice and the appended value. -/
def Sl.appendAt {α : Type} (s : Sl α) (k : Nat) (suffix : List α) : Sl α × List α :=
  let value := s.arr.take k ++ suffix
  if k + suffix.length ≤ s.arr.length then
    ({ s with arr := value ++ s.arr.drop (k + suffix.length) }, value)
  else (s, value)

/-- `DecodeRelativePath`, `/repo/utils/paths.go:187-206`, with the reference as a slice of
components: the reference after the call and the result. -/
def decodeRelativePathMem (p : PathParams) (enc : Bytes) (reference : Sl Bytes) : Res (Sl Bytes × Path) := do
  let w := getWidthMax32Int p.cc
  let lenBytes ← slice enc 0 w
  match decodeIntMax32 lenBytes p.cc with
  | .ok prefixLength =>
    let _ ← slice reference.view 0 prefixLength
    let rest ← sliceFrom enc w
    match decodePath p rest with
    | .ok (_, suffix) => .ok (reference.appendAt prefixLength suffix)
    | .block => .block
    | _ => .crash
  | _ => .crash

/-- A component that is the window `mem[off : off+len]` of a larger buffer, as produced by
`DecodePath` (`/repo/utils/paths.go:123-125`) and `DecodePathStream`
(`/repo/utils/paths.go:178-180`). -/
structure Window where
  off : Nat
  len : Nat
deriving Repr, DecidableEq

/-- The bytes of a window. -/
def Window.read (mem : Bytes) (w : Window) : Bytes := (mem.drop w.off).take w.len

/-- Memory after `PrefixSuccessor` of a window (`/repo/utils/successor.go:77-85`). -/
def prefixSuccessorMemLoop (mem : Bytes) (w : Window) : Nat → Option Bytes
  | 0 => none
  | i + 1 =>
    match mem[w.off + i]? with
    | some b => if b ≠ 255 then some (mem.set (w.off + i) (b + 1)) else prefixSuccessorMemLoop mem w i
    | none => none

/-- Memory after the loop of `SuccessorPrefix` (`/repo/utils/successor.go:38-47`) on a path
whose components are windows of `mem`; the memory is the whole backing array, so `append`
at the window's end writes into it unless the window ends with the array. -/
def successorPrefixMemLoop (p : PathParams) (mem : Bytes) (ws : List Window) : Nat → Bytes
  | 0 => mem
  | i + 1 =>
    match ws[i]? with
    | none => mem
    | some w =>
      if p.conv w.len ≠ p.cl then mem.set (w.off + w.len) 0
      else match prefixSuccessorMemLoop mem w w.len with
        | some mem' => mem'
        | none => successorPrefixMemLoop p mem ws i

/-- Memory after `SuccessorPrefix`, `/repo/utils/successor.go:35-49`. -/
def successorPrefixMem (p : PathParams) (mem : Bytes) (ws : List Window) : Bytes :=
  successorPrefixMemLoop p mem ws ws.length

/-- The windows of `DecodePath` (`/repo/utils/paths.go:117-127`) in its input. -/
def decodePathWindows (p : PathParams) (enc : Bytes) : Nat → Nat → List Window
  | 0, _ => []
  | n + 1, pos =>
    let w := getWidthMax32Int p.cl
    let len := getBE ((enc.drop pos).take w)
    ⟨pos + w, len⟩ :: decodePathWindows p enc n (pos + w + len)

end Willow
