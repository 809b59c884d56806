import Verif.Model.Store
import Verif.Lemmas.Kv
import Verif.Props.Successor

/-! Definitions used in the statements of `Verif/Props/Payload.lean`. -/

namespace Willow.Props

open Willow Spec

/-- A configuration for examples: the digest of a payload is the payload with a leading 1, the
file name is the digest, the token is the subspace and authorises its subspace. -/
def testEnv (lib : KdLib) : StoreEnv :=
  { p := tinyParams, lib := lib, hash := fun b => 1 :: b, fileKey := fun d => d, nsEqual := fun a b => decide (a = b),
    authorise := fun _ t => some t, isAuthorised := fun e t => decide (e.subspaceId = t), tokenEncode := fun t => t,
    namespaceId := [42] }

/-- The file names tell digests apart, and no file name is empty. -/
structure GoodNames (env : StoreEnv) : Prop where
  inj : ∀ a b, env.fileKey (env.hash a) = env.fileKey (env.hash b) → env.hash a = env.hash b
  ne : ∀ a, env.fileKey (env.hash a) ≠ []

end Willow.Props
