import Verif.Lemmas.Storage
import Verif.Props.Successor
import Verif.Props.Encoding

/-! Definitions used in the statements of `Verif/Props/Storage.lean`. -/

namespace Willow.Props

open Willow Spec

/-- One operation on the reference counter. -/
inductive RefOp where
  | inc (digest : Bytes)
  | dec (digest : Bytes)
deriving DecidableEq

/-- One operation on the reference counter. -/
def runRef (kv : KV) : RefOp → Res KV
  | .inc d => (refIncrement kv d).map' (·.2)
  | .dec d => (refDecrement kv d).map' (·.2)

/-- The operations carried out one after the other. -/
def runRefs (kv : KV) : List RefOp → Res KV
  | [] => .ok kv
  | op :: ops => do
    let kv' ← runRef kv op
    runRefs kv' ops

end Willow.Props
