import Verif.Spec.Order

/-! Paths relative to others. -/

namespace Willow.Spec

/-- The components after some prefix that the two paths share have at most `n` bytes. -/
def ShortAfterShared (n : Nat) (path reference : Path) : Prop :=
  ∃ k, k ≤ path.length ∧ k ≤ reference.length ∧ path.take k = reference.take k ∧ ∀ c ∈ path.drop k, c.length ≤ n

/-- Two paths begin with the same component. -/
def SameFirst (a b : Path) : Prop := ∃ c, a.head? = some c ∧ b.head? = some c

end Willow.Spec
