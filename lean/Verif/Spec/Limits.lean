import Verif.Spec.StoreOps

/-! What it means that calls on a store did what they should. -/

namespace Willow.Spec

open Willow

/-- The calls all return, the store then holds exactly the items it should hold, and a lookup finds
each of them. -/
def Faithful (env : StoreEnv) (ops : List StoreOp) : Prop :=
  ∃ st, runOps env .empty ops = .ok st ∧
    (∀ a : Item, Proper env.p a → (Holds env st a.pos a.val ↔ a ∈ specRun env [] ops)) ∧
    ∀ a ∈ specRun env [] ops, entryGet env st a.pos.subspace a.pos.path =
      .ok (.found (a.entry env.namespaceId) a.val.authDigest)

/-- The valid path leaves room for another component, and of its components that are not the largest possible one the
last has the greatest length. -/
structure FullEnd (p : PathParams) (path : Path) : Prop where
  valid : ValidPath p path
  room : path.length < p.cc
  full : ∃ pre c post, path = pre ++ c :: post ∧ c.length = p.cl ∧ c ≠ List.replicate p.cl 255 ∧
    ∀ d ∈ post, d = List.replicate p.cl 255

end Willow.Spec
