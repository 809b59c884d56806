import Verif.Model.Ranges
import Verif.Model.Successor

/-! Model of `/repo/utils/areas.go`, lines 69-198 (membership, inclusion, intersection,
conversion to a range). -/

namespace Willow

/-- `FullArea`, `/repo/utils/areas.go:74-76`. -/
def fullArea : Area :=
  { subspace := [], anySubspace := true, path := [], times := { start := 0, stop := 0, openEnd := true } }

/-- `SubspaceArea`, `/repo/utils/areas.go:79-81`. -/
def subspaceArea (s : Bytes) : Area :=
  { subspace := s, anySubspace := false, path := [], times := { start := 0, stop := 0, openEnd := true } }

/-- `IsSubspaceIncludedInArea`, `/repo/utils/areas.go:84-90`. -/
def isSubspaceIncludedInArea (ordS : Bytes → Bytes → Ordering) (area : Area) (s : Bytes) : Bool :=
  if area.anySubspace then true else ordS area.subspace s == .eq

/-- `IsIncludedArea`, `/repo/utils/areas.go:93-102`. -/
def isIncludedArea (ordS : Bytes → Bytes → Ordering) (area : Area) (x : Position) : Bool :=
  if !isSubspaceIncludedInArea ordS area x.subspace then false
  else if !isIncludedRange orderTimestamp area.times x.time then false
  else isPathPrefixed area.path x.path

/-- `AreaIsIncluded`, `/repo/utils/areas.go:107-122`. -/
def areaIsIncluded (ordS : Bytes → Bytes → Ordering) (inner outer : Area) : Bool :=
  if !outer.anySubspace && inner.anySubspace then false
  else if !outer.anySubspace && !inner.anySubspace && ordS outer.subspace inner.subspace != .eq then false
  else if !isPathPrefixed outer.path inner.path then false
  else if !rangeIsIncluded orderTimestamp outer.times inner.times then false
  else true

/-- `IntersectArea`, `/repo/utils/areas.go:125-148`. The returned literals do not set
`Any_subspace`, so it is false. -/
def intersectArea (ordS : Bytes → Bytes → Ordering) (a b : Area) : Option Area :=
  if !a.anySubspace && !b.anySubspace && ordS a.subspace b.subspace != .eq then none
  else
    let isPrefixA := isPathPrefixed a.path b.path
    let isPrefixB := isPathPrefixed b.path a.path
    if !isPrefixA && !isPrefixB then none
    else
      match intersectRange 0 orderTimestamp a.times b.times with
      | none => none
      | some t =>
        if isPrefixA then
          some { subspace := a.subspace, anySubspace := false, path := b.path, times := t }
        else
          some { subspace := a.subspace, anySubspace := false, path := a.path, times := t }

/-- `AreaTo3dRange`, `/repo/utils/areas.go:152-198`. `minimal` and `succ` are the options
`MinimalSubspace` and `SuccessorSubspace`. The comparison at line 156 is between values of
different Go types and is therefore never equal, so the first branch is always taken. The
copy at lines 175-176 is shallow, so the start of the path range shows the in-place effect of
`SuccessorPrefix`. -/
def areaTo3dRange (minimal : Bytes) (succ : Bytes → Bytes) (p : PathParams) (area : Area) :
    Res Range3d := do
  let subspaceRange : GRange Bytes :=
    if !area.anySubspace then { start := area.subspace, stop := succ area.subspace, openEnd := false }
    else { start := minimal, stop := [], openEnd := true }
  let endPath ← successorPrefix area.path p
  let stop := endPath.getD []
  let choice := stop.length == 0
  .ok { subspace := subspaceRange,
        path := { start := successorPrefixMutated area.path p, stop := stop, openEnd := choice },
        time := area.times }

end Willow
