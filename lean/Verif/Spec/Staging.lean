import Verif.Model.Staging

/-! Which transfers are not finished. -/

namespace Willow.Spec

open Willow

/-- The call begins or ends a transfer with this temporary name. -/
def Touches (temp : Bytes) : RecvOp → Prop
  | .receive t _ _ _ => t = temp
  | .commit t _ _ => t = temp
  | .reject t => t = temp

instance (temp : Bytes) (op : RecvOp) : Decidable (Touches temp op) := by
  cases op <;> unfold Touches <;> infer_instance

/-- A transfer with this temporary name was begun with these bytes at this offset and has not been ended. -/
def Unfinished (temp payload : Bytes) (offset : Int) (ops : List RecvOp) : Prop :=
  ∃ before digest after, ops = before ++ .receive temp payload offset digest :: after ∧
    ∀ op ∈ after, ¬ Touches temp op

end Willow.Spec
