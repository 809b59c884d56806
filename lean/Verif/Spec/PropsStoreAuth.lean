import Verif.Lemmas.History
import Verif.Lemmas.PropsStore

/-! Definitions used in the statements of `Verif/Props/StoreAuth.lean`. -/

namespace Willow.Props

open Willow Spec

/-- The entry at `b` is older than the one at `a`, which is at the same path or at a prefix. -/
def Outdates (a b : Position) : Prop := a.subspace = b.subspace ∧ a.path <+: b.path ∧ b.time < a.time

/-- The entries that no other entry outdates. -/
def Current (S : List Item) (x : Item) : Prop := x ∈ S ∧ ∀ y ∈ S, ¬ Outdates y.pos x.pos

/-- The items of some ingests. -/
def itemsOf (env : StoreEnv) (xs : List (Entry × Bytes)) : List Item := xs.map fun x => newItem env x.1 x.2

/-- Entries at the same path, or one above the other, that have the same timestamp are the
same. -/
def NoTies (S : List Item) : Prop :=
  ∀ x ∈ S, ∀ y ∈ S, x.pos.subspace = y.pos.subspace → x.pos.path <+: y.pos.path → x.pos.time = y.pos.time → x = y

/-- The calls that ingest some entries. -/
def ingests (xs : List (Entry × Bytes)) : List StoreOp := xs.map fun x => .ingest x.1 x.2

end Willow.Props
