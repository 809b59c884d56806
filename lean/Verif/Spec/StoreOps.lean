import Verif.Model.StoreRun
import Verif.Spec.Store

/-! Independent specification of what a sequence of calls leaves in a store. -/

namespace Willow.Spec

open Willow

/-- What is recorded for an entry ingested with a token. -/
def newItem (env : StoreEnv) (e : Entry) (token : Bytes) : Item :=
  ⟨⟨e.subspaceId, e.path, e.timestamp⟩, ⟨e.payloadLength, e.payloadDigest, env.hash (env.tokenEncode token)⟩⟩

/-- The entry and token that a call tries to store. -/
def attempt (env : StoreEnv) : StoreOp → Option (Entry × Bytes)
  | .set now input authorisation =>
    let e : Entry :=
      { namespaceId := env.namespaceId, subspaceId := input.subspace, path := input.path,
        payloadDigest := env.hash input.payload, payloadLength := UInt64.ofNat input.payload.length,
        timestamp := if input.timestamp = 0 then now else input.timestamp }
    (env.authorise e authorisation).map fun token => (e, token)
  | .ingest e token => some (e, token)
  | .restart => none

/-- The entry is of the store's namespace, authorised by the token, and newer than what is
stored at its path and above. -/
def Acceptable (env : StoreEnv) (items : List Item) (e : Entry) (token : Bytes) : Prop :=
  env.nsEqual env.namespaceId e.namespaceId = true ∧ env.isAuthorised e token = true ∧
  Accepts items ⟨e.subspaceId, e.path, e.timestamp⟩

instance (env : StoreEnv) (items : List Item) (e : Entry) (token : Bytes) : Decidable (Acceptable env items e token) := by
  unfold Acceptable; infer_instance

/-- The items after a call. -/
def specStep (env : StoreEnv) (items : List Item) (op : StoreOp) : List Item :=
  match attempt env op with
  | none => items
  | some (e, token) => if Acceptable env items e token then afterInsert items (newItem env e token) else items

/-- The items after some calls. -/
def specRun (env : StoreEnv) (items : List Item) : List StoreOp → List Item
  | [] => items
  | op :: ops => specRun env (specStep env items op) ops

/-- The call is one whose path the path arithmetic handles exactly (and, as in Go, digests are
shorter than 2^64 bytes). -/
def FineOp (env : StoreEnv) (op : StoreOp) : Prop :=
  ∀ e token, attempt env op = some (e, token) → Comfortable env.p e.path ∧ e.payloadDigest.length < 2 ^ 64

/-- The store holds an entry at `pos` with the given values: in the database and in the tree. -/
def Holds (env : StoreEnv) (st : StoreState) (pos : Position) (v : Values) : Prop :=
  st.kv.get (encodeKey env.p pos) = some (encodeValues v) ∧ ∃ k ∈ st.kd, k.pos = pos

/-- Values and path that the encodings keep apart. -/
structure Proper (p : PathParams) (a : Item) : Prop where
  valid : ValidPath p a.pos.path
  digest : a.val.payloadDigest.length < 2 ^ 64
  auth : a.val.authDigest.length < 2 ^ 64

/-- The call replaces a stored entry by one with the same payload digest `d`. -/
def Rewrites (env : StoreEnv) (items : List Item) (op : StoreOp) (d : Bytes) : Prop :=
  ∃ e token, attempt env op = some (e, token) ∧ Acceptable env items e token ∧ e.payloadDigest = d ∧
    ∃ a ∈ items, a.pos.subspace = e.subspaceId ∧ a.pos.path = e.path ∧ a.val.payloadDigest = d

/-- How many of the calls replaced an entry by one with the same payload digest `d`. -/
noncomputable def rewrites (env : StoreEnv) (items : List Item) : List StoreOp → Bytes → Nat
  | [], _ => 0
  | op :: ops, d =>
    (@ite Nat (Rewrites env items op d) (Classical.propDecidable _) 1 0) + rewrites env (specStep env items op) ops d

end Willow.Spec
