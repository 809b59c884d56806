import Verif.Model.Stream

/-! Bytes that no encoder made: which first bytes are harmless. -/

namespace Willow.Spec

/-- A decoder that does not panic, nor read past the bytes that have arrived, whatever arrives and
however it is cut into chunks. (Reading past them panics if the array has no room, which is among the cases.) -/
def NeverPanics {α : Type} (d : Dec α) : Prop := ∀ g : GB, d g ≠ .crash

/-- The bytes at the front of a message after which nothing that follows can end the process:
0x00 to 0x07, 0x20 to 0x3f and everything from 0x70 on; while a payload is expected, also 0x50 to
0x5f except 0x53 and 0x57. -/
def harmless (expectsPayload : Bool) (b : UInt8) : Bool :=
  decide (b.toNat ≤ 0x07) || decide (0x20 ≤ b.toNat ∧ b.toNat ≤ 0x3f) || decide (0x70 ≤ b.toNat) ||
    (expectsPayload && decide (0x50 ≤ b.toNat ∧ b.toNat ≤ 0x5f ∧ b.toNat ≠ 0x53 ∧ b.toNat ≠ 0x57))

end Willow.Spec
