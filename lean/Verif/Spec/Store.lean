import Verif.Model.Keys
import Verif.Spec.Order

/-! Independent specification of what a store holds and how one entry displaces another. -/

namespace Willow.Spec

open Willow

/-- A stored entry: where it is and what is recorded for it. -/
structure Item where
  pos : Position
  val : Values
deriving Repr, DecidableEq

/-- Paths for which the path arithmetic of the code is exact (see C12 and C13): valid, and when
the components at the end that are as large as components get (full length, all 255) are left
out, there is a last component `c`, with room for one more byte in it and in the total length
up to it. For most paths: the last component is not of full length and the total length is
not used up. -/
structure Comfortable (p : PathParams) (path : Path) : Prop where
  valid : ValidPath p path
  room : ∃ pre c post, path = pre ++ c :: post ∧ c.length < p.cl ∧ pathBytes (pre ++ [c]) < p.pl ∧
    ∀ d ∈ post, d = List.replicate p.cl 255

/-- A new entry at `pos` is acceptable beside the entries `items`: all entries of the subspace
at the same path or at a prefix are older. -/
def Accepts (items : List Item) (pos : Position) : Prop :=
  ∀ a ∈ items, a.pos.subspace = pos.subspace → a.pos.path <+: pos.path → a.pos.time < pos.time

instance (items : List Item) (pos : Position) : Decidable (Accepts items pos) := by
  unfold Accepts; infer_instance

/-- The entry at `new` prunes the entry at `old`: strictly below and strictly older. -/
def Prunes (new old : Position) : Prop :=
  old.subspace = new.subspace ∧ new.path <+: old.path ∧ old.path ≠ new.path ∧ old.time < new.time

instance (a b : Position) : Decidable (Prunes a b) := by unfold Prunes; infer_instance

/-- The entry at `new` displaces the entry at `old`: it replaces or prunes it. -/
def Displaces (new old : Position) : Prop :=
  (old.subspace = new.subspace ∧ old.path = new.path) ∨ Prunes new old

instance (a b : Position) : Decidable (Displaces a b) := by unfold Displaces; infer_instance

/-- The entries after accepting a new one. -/
def afterInsert (items : List Item) (new : Item) : List Item :=
  new :: items.filter fun a => ¬ Displaces new.pos a.pos

/-- At most one entry per subspace and path. -/
def OnePerPath (items : List Item) : Prop :=
  ∀ a ∈ items, ∀ b ∈ items, a.pos.subspace = b.pos.subspace → a.pos.path = b.pos.path → a = b

/-- No entry lies strictly below a strictly newer one of the same subspace. -/
def PruningComplete (items : List Item) : Prop :=
  ∀ a ∈ items, ∀ b ∈ items, a.pos.subspace = b.pos.subspace → a.pos.path <+: b.pos.path →
    a.pos.path ≠ b.pos.path → ¬ b.pos.time < a.pos.time

/-- The members of a list that satisfy a condition. -/
noncomputable def those {α : Type} (P : α → Prop) (l : List α) : List α :=
  l.filter fun a => @decide (P a) (Classical.propDecidable _)

/-- How many members of a list satisfy a condition. -/
noncomputable def howMany {α : Type} (P : α → Prop) (l : List α) : Nat := (those P l).length

/-- The entry that a stored item stands for. -/
def Item.entry (namespaceId : Bytes) (a : Item) : Entry :=
  { namespaceId := namespaceId, subspaceId := a.pos.subspace, path := a.pos.path,
    payloadDigest := a.val.payloadDigest, payloadLength := a.val.payloadLength, timestamp := a.pos.time }

/-- Total payload length of some entries, as a number. -/
def payloadTotal (es : List Entry) : Nat := (es.map fun e => e.payloadLength.toNat).sum

/-- An entry of which nothing has been filled in, with no token. -/
def nothingFilledIn : Entry × Bytes := (⟨[], [], [], [], 0, 0⟩, [])

end Willow.Spec
