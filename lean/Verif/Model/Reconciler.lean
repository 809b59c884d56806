import Verif.Model.Areas
import Verif.Model.Transport
import Verif.Model.Store

/-!
# Starting a reconciliation

`NewReconciler`, `DetermineRange` and `Initiate` of
`/repo/pkg/wgps/reconciliation/reconciler.go`. `Respond` is in `Verif/Model/Wgps.lean`.
-/

namespace Willow

/-- The fields of `SubspaceScheme` (`/repo/pkg/data_model/datamodeltypes/storetypes.go`) that the
reconciler uses. -/
structure SubspaceOps where
  minimal : Bytes
  succ : Bytes → Bytes
  order : Bytes → Bytes → Ordering

/-- `TestSubspaceScheme`, `/repo/PinaGoladaStore/StoreSchemes.go:54-59`. -/
def appSubspaces : SubspaceOps := ⟨[], successorSubspaceId, orderSubspace⟩

/-- `AreaOfInterestToRange`, `/repo/pkg/data_model/store/store.go:350-354`, which is
`GetInterestRange`, `/repo/pkg/data_model/datamodeltypes/entryDriverTypes.go:99-110`: the limits on
count and size are not looked at. -/
def interestRange (sub : SubspaceOps) (p : PathParams) (aoi : AreaOfInterest) : Res Range3d :=
  areaTo3dRange sub.minimal sub.succ p aoi.area

/-- What the goroutine of `DetermineRange`, `/repo/pkg/wgps/reconciliation/reconciler.go:89-109`,
sends to `Ranges`, which has room for it. The error returned at line 103 is dropped by the caller
(line 75). Simplification: the paths of the two areas share no memory. -/
def determineRange (sub : SubspaceOps) (p : PathParams) (ours theirs : AreaOfInterest) (role : SyncRole) :
    Res (Option Range3d) := do
  let range1 ← interestRange sub p ours
  let range2 ← interestRange sub p theirs
  match intersectRange3d sub.order range1 range2 with
  | none => .ok none
  | some intersection => .ok (if role = .alfie then some intersection else none)

/-- What the goroutine of `Initiate`, `/repo/pkg/wgps/reconciliation/reconciler.go:111-126`, sends
to `FingerPrintQueue`, which has room for it; `sent` is what `DetermineRange` sends. Without that,
it waits. -/
def initiate (lib : KdLib) (fps : FpScheme) (kd : List KdKey) (sent : Option Range3d) : Res (Range3d × Bytes) :=
  match sent with
  | none => .block
  | some intersection => do
    let (fp, _) ← summarise lib kd intersection
    .ok (intersection, fps.finalise fp)

/-- `NewReconciler`, `/repo/pkg/wgps/reconciliation/reconciler.go:50-87`: what is in
`FingerPrintQueue` afterwards. It waits for its goroutines only as Alfie; as Betty, a panic of the
goroutine still ends the process, perhaps later. -/
def newReconciler (sub : SubspaceOps) (p : PathParams) (lib : KdLib) (fps : FpScheme) (kd : List KdKey)
    (ours theirs : AreaOfInterest) (role : SyncRole) : Res (List (Range3d × Bytes)) := do
  let sent ← determineRange sub p ours theirs role
  match role with
  | .alfie =>
    let first ← initiate lib fps kd sent
    .ok [first]
  | .betty => .ok []

end Willow
