import Verif.Model.Basic

/-! Independent specification of the orders, ranges and areas of the Willow data model. -/

namespace Willow.Spec

open Willow

/-- Strict lexicographic order on lists induced by a strict order on the elements; a proper
prefix is smaller. -/
def LexLt {α : Type} (lt : α → α → Prop) : List α → List α → Prop
  | _, [] => False
  | [], _ :: _ => True
  | a :: as, b :: bs => lt a b ∨ (a = b ∧ LexLt lt as bs)

/-- Order on byte strings. -/
def BytesLt : Bytes → Bytes → Prop := LexLt (fun a b : UInt8 => a < b)

/-- Order on paths. -/
def PathLt : Path → Path → Prop := LexLt BytesLt

/-- Order on timestamps. -/
def TimeLt (a b : UInt64) : Prop := a < b

/-- A strict total order. -/
structure StrictTotal {α : Type} (lt : α → α → Prop) : Prop where
  irrefl : ∀ a, ¬ lt a a
  trans : ∀ a b c, lt a b → lt b c → lt a c
  tri : ∀ a b, lt a b ∨ a = b ∨ lt b a

/-- A three-way comparison function decides the strict order `lt`. -/
structure Decides {α : Type} (lt : α → α → Prop) (cmp : α → α → Ordering) : Prop where
  lt_iff : ∀ a b, cmp a b = .lt ↔ lt a b
  eq_iff : ∀ a b, cmp a b = .eq ↔ a = b
  gt_iff : ∀ a b, cmp a b = .gt ↔ lt b a

/-- `x` lies in the half-open (or open-ended) range `r`. -/
def InRange {α : Type} (lt : α → α → Prop) (r : GRange α) (x : α) : Prop :=
  ¬ lt x r.start ∧ (r.openEnd = true ∨ lt x r.stop)

/-- A range is valid when its end, if any, is above its start. -/
def ValidRange {α : Type} (lt : α → α → Prop) (r : GRange α) : Prop :=
  r.openEnd = true ∨ lt r.start r.stop

/-- A position lies in a three-dimensional range. -/
def InRange3d (r : Range3d) (x : Position) : Prop :=
  InRange BytesLt r.subspace x.subspace ∧ InRange PathLt r.path x.path ∧
    InRange TimeLt r.time x.time

def ValidRange3d (r : Range3d) : Prop :=
  ValidRange BytesLt r.subspace ∧ ValidRange PathLt r.path ∧ ValidRange TimeLt r.time

/-- A position lies in an area. -/
def InArea (a : Area) (x : Position) : Prop :=
  (a.anySubspace = true ∨ x.subspace = a.subspace) ∧ a.path <+: x.path ∧ InRange TimeLt a.times x.time

/-- The number of bytes in all components together. -/
def pathBytes (path : Path) : Nat := (path.map List.length).sum

/-- A path obeys the limits of the parameters. -/
structure ValidPath (p : PathParams) (path : Path) : Prop where
  count : path.length ≤ p.cc
  comp : ∀ c ∈ path, c.length ≤ p.cl
  total : pathBytes path ≤ p.pl

/-- A valid path with fewer than 2^32 components, each shorter than 2^32 bytes. (If the limits are below
2^32, every valid path is one.) -/
structure ShortPath (p : PathParams) (path : Path) : Prop extends ValidPath p path where
  few : path.length < 2 ^ 32
  short : ∀ c ∈ path, c.length < 2 ^ 32

end Willow.Spec
