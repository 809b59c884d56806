import Verif.Spec.StoreOps

/-! Definitions used in the statements about the contents of payload files. -/

namespace Willow.Spec

open Willow

/-- The bytes that a call gives to the payload files: the payload of a `Set`, and the encoded
token. -/
def bytesGiven (env : StoreEnv) (op : StoreOp) : List Bytes :=
  (match op with
    | .set _ input _ => [input.payload]
    | _ => []) ++
  (match attempt env op with
    | some (_, token) => [env.tokenEncode token]
    | none => [])

/-- The digest function has no collision among some bytes. -/
def NoCollision (hash : Bytes → Bytes) (l : List Bytes) : Prop :=
  ∀ x ∈ l, ∀ y ∈ l, hash x = hash y → x = y

end Willow.Spec
