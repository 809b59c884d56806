import Verif.Lemmas.Queue
import Verif.Props.OrdersRanges

/-! Definitions used in the statements of `Verif/Props/Finders.lean`. -/

namespace Willow.Props

open Willow Spec
variable {ρ : Type}

/-- Handles are bound to areas of interest with valid time ranges. -/
structure Resolves (env : FinderEnv) (adds : List (UInt64 × Bytes × Bool)) : Prop where
  ours : ∀ h n, (h, n, true) ∈ adds → ∃ a, env.handlesOurs h = some a ∧ ValidRange TimeLt a.area.times
  theirs : ∀ h n, (h, n, false) ∈ adds → ∃ a, env.handlesTheirs h = some a ∧ ValidRange TimeLt a.area.times

end Willow.Props
