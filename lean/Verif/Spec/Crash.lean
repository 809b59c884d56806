import Verif.Model.Crash
import Verif.Spec.StoreOps

/-! Independent specification of what may be in a store after a call was cut off. -/

namespace Willow.Spec

open Willow

/-- `A'` is a state between `A` and the state after `new` has been stored: only entries that `new`
displaces are missing, nothing is there but `new` and earlier entries, with at most one entry per path,
and no entry has been pruned without `new` being there. -/
structure PartWay (A A' : List Item) (new : Item) : Prop where
  kept : ∀ a ∈ A, ¬ Displaces new.pos a.pos → a ∈ A'
  only : ∀ a ∈ A', a = new ∨ a ∈ A
  pruned : ∀ a ∈ A, Prunes new.pos a.pos → a ∉ A' → new ∈ A'
  onePerPath : OnePerPath A'

/-- The items that may be there after a call was cut off: those before, or a state between. -/
def CutOff (env : StoreEnv) (A A' : List Item) (op : StoreOp) : Prop :=
  match attempt env op with
  | none => A' = A
  | some (e, token) => if Acceptable env A e token then PartWay A A' (newItem env e token) else A' = A

/-- The last of the changes made is the write of an entry (so the reference to its payload has not been
counted). -/
def EndsInEntry (ws : List DiskWrite) : Prop := ∃ key value, ws.getLast? = some (.entrySet key value)

/-- The file has nothing to do with the call: it is not that of a payload written by it, nor of its token,
nor of the token of the entry it replaces. -/
structure Elsewhere (env : StoreEnv) (A : List Item) (op : StoreOp) (name : Bytes) : Prop where
  payload : ∀ now input authorisation, op = .set now input authorisation → env.fileKey (env.hash input.payload) ≠ name
  token : ∀ e token, attempt env op = some (e, token) → env.fileKey (env.hash (env.tokenEncode token)) ≠ name
  replaced : ∀ e token, attempt env op = some (e, token) → ∀ o ∈ A, o.pos.subspace = e.subspaceId → o.pos.path = e.path →
    env.fileKey o.val.authDigest ≠ name

/-- The call does not displace the entry. -/
def Unmoved (env : StoreEnv) (A : List Item) (op : StoreOp) (a : Item) : Prop :=
  ∀ e token, attempt env op = some (e, token) → Acceptable env A e token → ¬ Displaces ⟨e.subspaceId, e.path, e.timestamp⟩ a.pos

end Willow.Spec
