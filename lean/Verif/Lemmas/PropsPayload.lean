import Verif.Model.Store
import Verif.Lemmas.Kv
import Verif.Props.Successor
import Verif.Spec.PropsPayload

/-! Lemmas for the theorems of `Verif/Props/Payload.lean`. -/

namespace Willow.Props

open Willow Spec

theorem testEnv_goodNames (lib : KdLib) : GoodNames (testEnv lib) :=
  ⟨fun _ _ h => h, fun _ => List.cons_ne_nil _ _⟩

end Willow.Props
