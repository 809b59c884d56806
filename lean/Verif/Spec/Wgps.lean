import Verif.Model.Wgps

/-! Independent specifications for the parts of the sync protocol. -/

namespace Willow.Spec

open Willow

/-- The bytes pushed into a guarantee queue, in order. -/
def pushedBytes : List QueueOp → Bytes
  | [] => []
  | .push bytes :: ops => bytes ++ pushedBytes ops
  | _ :: ops => pushedBytes ops

/-- The guarantees issued to a guarantee queue. -/
def issued : List QueueOp → Nat
  | [] => 0
  | .add n :: ops => n.toNat + issued ops
  | _ :: ops => issued ops

/-- At least one message has been pushed. -/
def anyPush : List QueueOp → Bool
  | [] => false
  | .push _ :: _ => true
  | _ :: ops => anyPush ops

/-- The last registration with one of our handles: their handle and the reconciler. -/
def lastRegistered {ρ : Type} (ours : UInt64) : List (UInt64 × UInt64 × ρ) → Option (UInt64 × ρ)
  | [] => none
  | (o, t, r) :: later =>
    match lastRegistered ours later with
    | some x => some x
    | none => if o = ours then some (t, r) else none

/-- The messages cut into sections: a message that is not a payload message, and the bytes of
the payload messages that follow it. Payload messages before the first other message are
dropped. -/
def sections : List DataMsg → List (DataMsg × Bytes)
  | [] => []
  | .sendPayload _ _ :: rest => sections rest
  | m :: rest => (m, following rest) :: sections rest
where
  following : List DataMsg → Bytes
    | .sendPayload _ bytes :: rest => bytes ++ following rest
    | _ => []

end Willow.Spec
