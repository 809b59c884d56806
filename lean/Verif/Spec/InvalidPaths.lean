import Verif.Spec.Order

/-! Paths beyond the limits. -/

namespace Willow.Spec

/-- The path has more components, or more bytes, than the limits allow. -/
def TooBig (p : PathParams) (path : Path) : Prop := p.cc < path.length ∨ p.pl < pathBytes path

/-- The path has fewer components than the limit, or does not end with the largest component. -/
def PlainEnd (p : PathParams) (path : Path) : Prop :=
  path.length < p.cc ∨ path.getLast? ≠ some (List.replicate p.cl 255)

end Willow.Spec
