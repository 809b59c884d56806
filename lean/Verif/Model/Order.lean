import Verif.Model.Basic

/-! Model of `/repo/utils/order.go`. `types.Rel` (`/repo/types`, values -1, 0, 1) is
represented by `Ordering`. -/

namespace Willow

/-- `OrderBytes`, `/repo/utils/order.go:10-31`. The index loop over the common length
followed by the length comparison is written as a recursion on both slices. -/
def orderBytes : Bytes → Bytes → Ordering
  | [], [] => .eq
  | [], _ :: _ => .lt
  | _ :: _, [] => .gt
  | a :: as, b :: bs => if a < b then .lt else if a > b then .gt else orderBytes as bs

/-- `OrderTimestamp`, `/repo/utils/order.go:35-42`. -/
def orderTimestamp (a b : UInt64) : Ordering :=
  if a < b then .lt else if a > b then .gt else .eq

/-- `OrderPath`, `/repo/utils/order.go:45-64`, as a recursion on both paths. -/
def orderPath : Path → Path → Ordering
  | [], [] => .eq
  | [], _ :: _ => .lt
  | _ :: _, [] => .gt
  | a :: as, b :: bs =>
    let order := orderBytes a b
    if order ≠ .eq then order else orderPath as bs

/-- The digit table of Go's `encoding/hex` ("0123456789abcdef"), indexed by a nibble. -/
def hexDigit (n : UInt8) : UInt8 := if n < 10 then 48 + n else 87 + n

/-- `hex.EncodeToString` of the Go standard library: two digits per byte, high nibble
first. -/
def hexEncode : Bytes → Bytes
  | [] => []
  | b :: bs => hexDigit (b >>> 4) :: hexDigit (b &&& 0x0f) :: hexEncode bs

/-- Go's `<` on strings (bytewise lexicographic), used by `OrderSubspace`. -/
def goStringLt : Bytes → Bytes → Bool
  | _, [] => false
  | [], _ :: _ => true
  | a :: as, b :: bs => if a == b then goStringLt as bs else a < b

/-- `OrderSubspace`, `/repo/utils/order.go:66-73`. -/
def orderSubspace (a b : Bytes) : Ordering :=
  if goStringLt (hexEncode a) (hexEncode b) then .lt
  else if goStringLt (hexEncode b) (hexEncode a) then .gt
  else .eq

end Willow
