import Verif.Model.DataSender

/-! Definitions used in the statements about queueing in the data sender. -/

namespace Willow.Spec

open Willow

/-- The payload of an entry in the files of the store of the namespace of the entry. (An empty file
name is that of the directory itself.) -/
def payloadOf (w : SenderWorld) (e : Entry) : Option Bytes :=
  if (w.env e.namespaceId).fileKey e.payloadDigest = [] then some []
  else (w.files e.namespaceId).get ((w.env e.namespaceId).fileKey e.payloadDigest)

/-- What a call asks to be sent, if the payload can be read then: the header, the entry whose
payload is meant, and the offset. -/
def asks (w : SenderWorld) : SenderCall → Option (DataMsg × Entry × UInt64)
  | .entry e handle token offset =>
    if (payloadOf w e).isSome then some (.sendEntry e handle token offset, e, offset) else none
  | .request handle =>
    match w.requests.get handle with
    | some r => if (payloadOf w r.entry).isSome then some (.replyPayload handle, r.entry, r.offset) else none
    | none => none
  | .messages => none

/-- The payload of an entry can be read from the offset on. -/
def Readable (w : SenderWorld) (e : Entry) (offset : UInt64) : Prop :=
  ∃ b, payloadOf w e = some b ∧ b.length < 2 ^ 63 ∧ offset.toNat < b.length

/-- The bytes of the payload of an entry from the offset on, each transformed. -/
def sentBytes (transform : Bytes → Bytes) (w : SenderWorld) (e : Entry) (offset : UInt64) : Bytes :=
  (((payloadOf w e).getD []).drop offset.toNat).flatMap fun b => transform [b]

end Willow.Spec
