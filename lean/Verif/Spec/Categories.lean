import Verif.Model.Categories

/-! The channel that the name of a category stands for. -/

namespace Willow.Spec

open Willow

/-- The channel for the messages of a category; those that belong to no logical channel go over the
control channel, whose number is 0. -/
def categoryChannel : Category → Channel
  | .reconciliation => .reconciliation
  | .data => .data
  | .intersection => .intersection
  | .capability => .capability
  | .areaOfInterest => .areaOfInterest
  | .payloadRequest => .payloadRequest
  | .staticToken => .staticToken
  | .noChannel => .control

end Willow.Spec
