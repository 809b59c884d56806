import Verif.Model.RelativeErrors

/-! Which ranges the decoder of relative ranges refuses. -/

namespace Willow.Spec

/-- The subspaces of `r` end where those of `ref` begin. -/
def EndsAtStart (ordS : Bytes → Bytes → Ordering) (r ref : Range3d) : Prop :=
  r.subspace.openEnd = false ∧ ref.subspace.openEnd = false ∧ ordS r.subspace.stop ref.subspace.start = .eq

/-- The path shares more components with the end of the range than with its start. -/
def NearEnd (x : Path) (ref : GRange Path) : Prop := ∃ pre, pre <+: x ∧ pre <+: ref.stop ∧ ¬ pre <+: ref.start

/-- The time is nearer to the largest one than to the start of the range. -/
def NearLast (t : UInt64) (ref : GRange UInt64) : Prop :=
  2 ^ 64 - 1 - t.toNat < (t.toNat - ref.start.toNat) + (ref.start.toNat - t.toNat)

/-- A part of `r` is given by an end that `ref` does not have. -/
def NeedsEnd (r ref : Range3d) : Prop :=
  (ref.path.openEnd = true ∧ (r.path.openEnd = true ∨ NearEnd r.path.start ref.path ∨ NearEnd r.path.stop ref.path)) ∨
  (ref.time.openEnd = true ∧ (NearLast r.time.start ref.time ∨ (r.time.openEnd = false ∧ NearLast r.time.stop ref.time)))

/-- Every dimension of the range has an end. -/
def Closed (r : Range3d) : Prop := r.subspace.openEnd = false ∧ r.path.openEnd = false ∧ r.time.openEnd = false

/-- A decoder that has no way to report an error. -/
def NeverFails {α : Type} (d : Dec α) : Prop := ∀ g : GB, d g ≠ .err

end Willow.Spec
