import Verif.Model.App

/-! What the names of payload files should be: RFC 4648, section 6. -/

namespace Willow.Spec

open Willow

/-- The base 32 alphabet, table 3 of RFC 4648. -/
def alphabet32 : Bytes := "ABCDEFGHIJKLMNOPQRSTUVWXYZ234567".toList.map fun c => UInt8.ofNat c.toNat

/-- The number with the given digits in a base, most significant first. -/
def numeral (base : Nat) (digits : List Nat) : Nat := digits.foldl (fun n d => n * base + d) 0

/-- The digits `0`-`9`, `a`-`f`, `A`-`F`. -/
def IsHexDigit (c : UInt8) : Prop := c ∈ "0123456789abcdefABCDEF".toList.map fun c => UInt8.ofNat c.toNat

instance (c : UInt8) : Decidable (IsHexDigit c) := by unfold IsHexDigit; infer_instance

/-- A letter `a`-`z` is replaced by the capital. -/
def upperCase (c : UInt8) : UInt8 := if 97 ≤ c ∧ c ≤ 122 then c - 32 else c

end Willow.Spec
