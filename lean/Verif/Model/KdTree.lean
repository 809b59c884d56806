import Verif.Model.Ranges

/-! Model of `/repo/pkg/data_model/kdnode`. The k-d tree library (`rishitc/go-kd-tree`) is not
in the repository; `KdTree.search` states how it uses the two callbacks. -/

namespace Willow

/-- `kdnode.Key`, `/repo/pkg/data_model/kdnode/willowkdtreenode.go:11-16`; the three
coordinates are grouped in `pos`. -/
structure KdKey where
  pos : Position
  fingerprint : Bytes
deriving Repr, DecidableEq

/-- One round of the loop of `Key.Order`,
`/repo/pkg/data_model/kdnode/willowkdtreenode.go:21-48`: compare in one dimension. -/
def keyOrderDim (lhs rhs : KdKey) (dim : Nat) : Ordering :=
  if dim = 0 then orderTimestamp lhs.pos.time rhs.pos.time
  else if dim = 1 then orderBytes lhs.pos.subspace rhs.pos.subspace
  else if dim = 2 then orderPath lhs.pos.path rhs.pos.path
  else .eq

/-- The loop of `Key.Order`, `/repo/pkg/data_model/kdnode/willowkdtreenode.go:20-50`, with `i`
rounds left. -/
def keyOrderLoop (lhs rhs : KdKey) : Nat → Nat → Ordering
  | 0, _ => .eq
  | i + 1, dim =>
    match keyOrderDim lhs rhs dim with
    | .lt => .lt
    | .gt => .gt
    | .eq => keyOrderLoop lhs rhs i ((dim + 1) % 3)

/-- `Key.Order`, `/repo/pkg/data_model/kdnode/willowkdtreenode.go:18-52`. -/
def keyOrder (lhs rhs : KdKey) (dim : Nat) : Ordering := keyOrderLoop lhs rhs 3 dim

/-- `kdtree.RelativePosition` of the library. -/
inductive RelPos where
  | before
  | inRange
  | after
deriving Repr, DecidableEq

/-- The answer for one dimension, `/repo/pkg/data_model/kdnode/wrapper.go:28-36` (and 38-46,
48-56, the same text for the other dimensions). -/
def relPosDim {α : Type} (order : α → α → Ordering) (r : GRange α) (x : α) : RelPos :=
  if order x r.start != .lt then
    if r.openEnd || order x r.stop == .lt then .inRange else .after
  else .before

/-- The callback `isInRange` with `d = -1`, `/repo/pkg/data_model/kdnode/wrapper.go:16-26`. -/
def relPosWhole (r : Range3d) (k : KdKey) : RelPos :=
  if isIncluded3d orderSubspace r k.pos then .inRange else .before

/-- The callback `isInRange` with `d` = 0, 1, 2, `/repo/pkg/data_model/kdnode/wrapper.go:27-56`
(other dimensions panic and are never asked for). -/
def relPos (r : Range3d) (k : KdKey) (d : Nat) : RelPos :=
  if d = 0 then relPosDim orderTimestamp r.time k.pos.time
  else if d = 1 then relPosDim orderBytes r.subspace k.pos.subspace
  else relPosDim orderPath r.path k.pos.path

/-- A k-d tree of the library. -/
inductive KdTree where
  | nil
  | node (key : KdKey) (left right : KdTree)

/-- All keys of a tree. -/
def KdTree.keys : KdTree → List KdKey
  | nil => []
  | node k l r => k :: (l.keys ++ r.keys)

/-- The search of the library (`kdt.Query`, called at
`/repo/pkg/data_model/kdnode/wrapper.go:60`), as far as it is used: a subtree is skipped when
the callback puts the node outside the range in the dimension of its level. -/
def KdTree.search (q : Range3d) : Nat → KdTree → List KdKey
  | _, nil => []
  | d, node k l r =>
    match relPos q k d with
    | .before => r.search q ((d + 1) % 3)
    | .after => l.search q ((d + 1) % 3)
    | .inRange =>
      (if relPosWhole q k = .inRange then [k] else []) ++
        (l.search q ((d + 1) % 3) ++ r.search q ((d + 1) % 3))

/-- `kdnode.Query`, `/repo/pkg/data_model/kdnode/wrapper.go:12-61`, on the root of a tree. -/
def kdQuery (t : KdTree) (q : Range3d) : List KdKey := t.search q 0

/-- Contract of the library: the tree is laid out by the key order, the level giving the
dimension (`kdtree.NewKDTreeWithValues(3, …)` at
`/repo/pkg/data_model/entry_driver/entry_driver.go:38`). -/
def KdTree.LaidOut : Nat → KdTree → Prop
  | _, nil => True
  | d, node k l r =>
    (∀ x ∈ l.keys, keyOrder x k d ≠ .gt) ∧ (∀ x ∈ r.keys, keyOrder x k d ≠ .lt) ∧
      l.LaidOut ((d + 1) % 3) ∧ r.LaidOut ((d + 1) % 3)

end Willow
