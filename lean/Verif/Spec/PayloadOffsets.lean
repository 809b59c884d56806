import Verif.Spec.DataSender

/-! What a queue asks for, for C134. -/

namespace Willow.Spec

open Willow

/-- The entry whose payload an element of the queue is about, and the offset from which it is to be sent. -/
def wantsFrom : Queued → Option (Entry × UInt64)
  | .nil => none
  | .entry e offset _ _ => some (e, offset)
  | .request _ offset e => some (e, offset)

/-- The payload is there and ends after the offset, so there is something to send. -/
def CanSend (w : SenderWorld) (e : Entry) (offset : UInt64) : Prop :=
  ∃ bytes, payloadOf w e = some bytes ∧ offset.toNat < bytes.length

/-- The payload is there and the offset is, as a signed number, so far below zero that there are more than `most` bytes from
it to the end of the payload. -/
def FarBack (most : Nat) (w : SenderWorld) (e : Entry) (offset : UInt64) : Prop :=
  ∃ bytes, payloadOf w e = some bytes ∧ 2 ^ 63 ≤ offset.toNat ∧ offset.toNat + most < 2 ^ 64 + bytes.length

/-- No payload is longer than `most`. -/
def PayloadsWithin (most : Nat) (w : SenderWorld) : Prop := ∀ e bytes, payloadOf w e = some bytes → bytes.length ≤ most

end Willow.Spec
