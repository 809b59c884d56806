import Verif.Spec.PropsStoreFiles

/-! Definitions used in the statements of `Verif/Props/StoreKept.lean`. -/

namespace Willow.Props

open Willow Spec

/-- Authorised entries of the same subspace have the same token (as in the application). -/
def TokensAlike (env : StoreEnv) (ops : List StoreOp) : Prop :=
  ∀ op ∈ ops, ∀ op' ∈ ops, ∀ e t e' t', attempt env op = some (e, t) → attempt env op' = some (e', t') →
    env.isAuthorised e t = true → env.isAuthorised e' t' = true →
    e.subspaceId = e'.subspaceId → env.hash (env.tokenEncode t) = env.hash (env.tokenEncode t')

/-- No digest of the calls has the name of the file of a payload with another digest. In the
application the digests of received entries are arbitrary texts, and texts that differ in
capitals have the same file. -/
def DigestsNamed (env : StoreEnv) (ops : List StoreOp) : Prop :=
  ∀ op ∈ ops, ∀ e t, attempt env op = some (e, t) → ∀ x, env.fileKey e.payloadDigest = env.fileKey (env.hash x) →
    e.payloadDigest = env.hash x

/-- A letter `A`-`Z`. -/
def IsCapital (c : UInt8) : Prop := 65 ≤ c ∧ c ≤ 90

instance (c : UInt8) : Decidable (IsCapital c) := by unfold IsCapital; infer_instance

/-- The position at which a payload is set. -/
def setAt (now : UInt64) (input : EntryInput) : Position :=
  ⟨input.subspace, input.path, if input.timestamp = 0 then now else input.timestamp⟩

end Willow.Props
