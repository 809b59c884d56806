import Verif.Model.Commands

/-! The lines of a text. -/

namespace Willow.Spec

/-- A line can be typed: it has no line feed, does not end with a carriage return, and is shorter than 2^16 bytes with its
end, which is a line feed or a carriage return and a line feed. -/
structure Typable (line ending : Bytes) : Prop where
  feed : (10 : UInt8) ∉ line
  last : line.getLast? ≠ some 13
  ends : ending = [10] ∨ ending = [13, 10]
  short : line.length + ending.length ≤ 65536

/-- The text of lines with their ends. -/
def textOf (lines : List (Bytes × Bytes)) : Bytes := lines.flatMap fun l => l.1 ++ l.2

/-- The lines with the times at which they are read, from the `n`-th on. -/
def timed {α : Type} (clock : Nat → UInt64) : Nat → List α → List (UInt64 × α)
  | _, [] => []
  | n, line :: rest => (clock n, line) :: timed clock (n + 1) rest

end Willow.Spec
