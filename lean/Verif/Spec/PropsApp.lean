import Verif.Lemmas.App
import Verif.Props.StoreMore

/-! Definitions used in the statements of `Verif/Props/App.lean`. -/

namespace Willow.Props

open Willow Spec

/-- The text of some decimal digits. -/
def digitText (ds : List Nat) : Bytes := ds.map fun d => UInt8.ofNat (48 + d)

/-- The number with the given decimal digits, most significant first. -/
def digitValue (ds : List Nat) : Nat := ds.foldl (fun n d => 10 * n + d) 0

/-- A text that consists of two numbers below 2^64 in decimal digits with a colon between them. -/
def IsTimeText (s : Bytes) (hs ms : List Nat) : Prop :=
  s = digitText hs ++ 58 :: digitText ms ∧ hs ≠ [] ∧ ms ≠ [] ∧ (∀ d ∈ hs ++ ms, d < 10) ∧
    digitValue hs < 2 ^ 64 ∧ digitValue ms < 2 ^ 64

end Willow.Props
