import Verif.Model.Basic
import Verif.Spec.Order
import Verif.Spec.Store

/-! Definitions used in the statements about starting a reconciliation. -/

namespace Willow.Spec

open Willow

/-- An area of which the conversion to a range can be relied on (see `C11_exact`), with a valid range
of times. -/
structure Convertible (p : PathParams) (a : Area) : Prop where
  valid : ValidPath p a.path
  room : Comfortable p a.path ∨ ∀ c ∈ a.path, c = List.replicate p.cl 255
  times : ValidRange TimeLt a.times

/-- A position whose components have at most the maximal length, in both areas. -/
structure InBoth (p : PathParams) (a b : AreaOfInterest) (x : Position) : Prop where
  components : ∀ c ∈ x.path, c.length ≤ p.cl
  first : InArea a.area x
  second : InArea b.area x

end Willow.Spec
