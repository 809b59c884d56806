import Verif.Lemmas.Storage
import Verif.Props.Successor
import Verif.Props.Encoding
import Verif.Spec.PropsStorage

/-! Lemmas for the theorems of `Verif/Props/Storage.lean`. -/

namespace Willow.Props

open Willow Spec

theorem runRefs_snoc (ops : List RefOp) (op : RefOp) : ∀ kv,
    runRefs kv (ops ++ [op]) = (do let kv' ← runRefs kv ops; runRef kv' op) := by
  induction ops with
  | nil => intro kv; simp [runRefs]; cases runRef kv op <;> rfl
  | cons o os ih =>
    intro kv
    simp only [List.cons_append, runRefs]
    cases runRef kv o with
    | ok a => simp only [Res.ok_bind, ih]
    | err => rfl
    | crash => rfl
    | block => rfl

end Willow.Props
