import Verif.Lemmas.Files
import Verif.Lemmas.PropsStoreAuth
import Verif.Lemmas.PropsPayload

/-! Definitions used in the statements of `Verif/Props/StoreFiles.lean`. -/

namespace Willow.Props

open Willow Spec

/-- The call is a write or a restart (an ingest brings no payload). -/
def IsWrite (op : StoreOp) : Prop := op = .restart ∨ ∃ now input authorisation, op = .set now input authorisation

/-- The tokens of the calls are never payloads of the calls (as far as digests can tell). -/
def TokensApart (env : StoreEnv) (ops : List StoreOp) : Prop :=
  ∀ op ∈ ops, ∀ op' ∈ ops, ∀ e t e' t', attempt env op = some (e, t) → attempt env op' = some (e', t') →
    env.hash (env.tokenEncode t) ≠ e'.payloadDigest

/-- A token used for entries at two paths is used for all entries at these paths. This holds
when the token depends on the subspace only, and when no two entries have the same token. -/
def TokensShared (env : StoreEnv) (ops : List StoreOp) : Prop :=
  ∀ op ∈ ops, ∀ op' ∈ ops, ∀ op'' ∈ ops, ∀ e t e' t' e'' t'', attempt env op = some (e, t) → attempt env op' = some (e', t') →
    attempt env op'' = some (e'', t'') → ¬ (e.subspaceId = e'.subspaceId ∧ e.path = e'.path) →
    env.hash (env.tokenEncode t) = env.hash (env.tokenEncode t') →
    e''.subspaceId = e'.subspaceId → e''.path = e'.path → env.hash (env.tokenEncode t'') = env.hash (env.tokenEncode t')

/-- Entries of the same subspace have the same token (as in the application). -/
def TokensBySubspace (env : StoreEnv) (ops : List StoreOp) : Prop :=
  ∀ op ∈ ops, ∀ op' ∈ ops, ∀ e t e' t', attempt env op = some (e, t) → attempt env op' = some (e', t') →
    e.subspaceId = e'.subspaceId → env.hash (env.tokenEncode t) = env.hash (env.tokenEncode t')

end Willow.Props
