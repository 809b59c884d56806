import Verif.Spec.Wgps
import Verif.Props.Storage

/-! Definitions used in the statements of `Verif/Props/Reconcile.lean`. -/

namespace Willow.Props

open Willow Spec

/-- No timestamp is shared by more than four entries in the range. -/
def FewPerTime (kd : List KdKey) (r : Range3d) : Prop := ∀ t, howMany (fun k => InRange3d r k.pos ∧ k.pos.time = t) kd ≤ 4

end Willow.Props
