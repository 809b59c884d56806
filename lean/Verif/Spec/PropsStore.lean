import Verif.Lemmas.StoreRun
import Verif.Props.Listing

/-! Definitions used in the statements of `Verif/Props/Store.lean`. -/

namespace Willow.Props

open Willow Spec

/-- A write to subspace 7 in examples. -/
def put (path : Path) (t : UInt64) (payload : Bytes) : StoreOp := .set 0 ⟨[7], path, t, payload⟩ [7]

end Willow.Props
