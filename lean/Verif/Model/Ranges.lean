import Verif.Model.Order

/-! Model of the order-theoretic part of `/repo/utils/ranges.go` (lines 11-207). -/

namespace Willow

/-- `OrderRangePair`, `/repo/utils/ranges.go:12-19`. -/
def orderRangePair {α : Type} (a b : GRange α) : GRange α × GRange α :=
  if (!a.openEnd && !b.openEnd) || (a.openEnd && b.openEnd) || (a.openEnd && !b.openEnd)
  then (a, b) else (b, a)

/-- `IsValidRange`, `/repo/utils/ranges.go:22-29`. -/
def isValidRange {α : Type} (order : α → α → Ordering) (r : GRange α) : Bool :=
  if r.openEnd then true else order r.start r.stop == .lt

/-- `IsIncludedRange`, `/repo/utils/ranges.go:31-38`. -/
def isIncludedRange {α : Type} (order : α → α → Ordering) (r : GRange α) (value : α) : Bool :=
  let gteStart := order value r.start != .lt
  if r.openEnd || !gteStart then gteStart else order value r.stop == .lt

/-- `IntersectRange`, `/repo/utils/ranges.go:40-107`; `none` stands for the result `false`.
`dflt` is Go's zero value, the `End` of a range literal that does not set it. The validity
check at line 41 only prints. -/
def intersectRange {α : Type} (dflt : α) (order : α → α → Ordering) (a₀ b₀ : GRange α) :
    Option (GRange α) :=
  let (a, b) := orderRangePair a₀ b₀
  if a.openEnd && b.openEnd then
    some { start := if order a.start b.start != .gt then b.start else a.start,
           stop := dflt, openEnd := true }
  else if a.openEnd && !b.openEnd then
    if order a.start b.start != .gt then some b
    else if order a.start b.start == .gt && order a.start b.stop == .lt then
      some { start := a.start, stop := b.stop, openEnd := false }
    else none
  else if !a.openEnd && !b.openEnd then
    let (mn, mx) := if order a.start b.start != .lt then (b, a) else (a, b)
    if order mn.stop mx.start != .gt then none
    else some { start := mx.start,
                stop := if order mn.stop mx.stop == .lt then mn.stop else mx.stop,
                openEnd := false }
  else none

/-- `RangeIsIncluded`, `/repo/utils/ranges.go:109-123`. -/
def rangeIsIncluded {α : Type} (order : α → α → Ordering) (parent child : GRange α) : Bool :=
  if child.openEnd && !parent.openEnd then false
  else
    let gteStart := order child.start parent.start != .lt
    if parent.openEnd then gteStart
    else if !gteStart then false
    else order child.stop parent.stop != .gt

/-- `IsValidRange3d`, `/repo/utils/ranges.go:125-136`. -/
def isValidRange3d (ordS : Bytes → Bytes → Ordering) (r : Range3d) : Bool :=
  if !isValidRange orderTimestamp r.time then false
  else if !isValidRange orderPath r.path then false
  else if !isValidRange ordS r.subspace then false
  else true

/-- `IsIncluded3d`, `/repo/utils/ranges.go:138-150`. -/
def isIncluded3d (ordS : Bytes → Bytes → Ordering) (r : Range3d) (x : Position) : Bool :=
  if !isIncludedRange orderTimestamp r.time x.time then false
  else if !isIncludedRange orderPath r.path x.path then false
  else if !isIncludedRange ordS r.subspace x.subspace then false
  else true

/-- `IntersectRange3d`, `/repo/utils/ranges.go:152-171`. -/
def intersectRange3d (ordS : Bytes → Bytes → Ordering) (a b : Range3d) : Option Range3d :=
  match intersectRange 0 orderTimestamp a.time b.time with
  | none => none
  | some t =>
    match intersectRange [] ordS a.subspace b.subspace with
    | none => none
    | some s =>
      match intersectRange [] orderPath a.path b.path with
      | none => none
      | some p => some { subspace := s, path := p, time := t }

/-- `IsEqualRangeValue`, `/repo/utils/ranges.go:173-198`. -/
def isEqualRangeValue {α : Type} (order : α → α → Ordering) (a : GRange α) (isStartA : Bool)
    (b : GRange α) (isStartB : Bool) : Bool :=
  if a.openEnd && b.openEnd then true
  else
    let x := if isStartA then a.start else a.stop
    let y := if isStartB then b.start else b.stop
    !a.openEnd && !b.openEnd && order x y == .eq

/-- `AbsDiffuint64`, `/repo/utils/ranges.go:200-207`. -/
def absDiffUint64 (a b : UInt64) : UInt64 := if a < b then b - a else a - b

end Willow
