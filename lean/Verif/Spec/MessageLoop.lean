import Verif.Model.MessageLoop
import Verif.Spec.Messages

/-! What the message loop should do. -/

namespace Willow.Spec

open Willow

/-- The first byte `b` of an encoded message selects the decoder of that message. -/
def RoutedRight (expectsPayload expectsEntry : Bool) (b : UInt8) (body : Body) : Prop :=
  branch expectsPayload expectsEntry b = .decoder (kindOf body)

/-- The messages among those sent to a channel. -/
def received (out : List (Option Msg)) : List Msg := out.filterMap id

/-- The messages are encoded one after the other into `bytes`; the first tracker is that of the
sender before, the last that after. -/
inductive EncodesAll (s : Schemes) (handleToNamespace : UInt64 → Bytes) (current : Entry) :
    Tracker → List Msg → Bytes → Tracker → Prop
  | nil (t : Tracker) : EncodesAll s handleToNamespace current t [] [] t
  | cons {t t' t'' : Tracker} {m : Msg} {ms : List Msg} {ch : Channel} {b bs : Bytes} :
    encodeMessage s handleToNamespace current t m = .ok ((ch, b), t') →
    EncodesAll s handleToNamespace current t' ms bs t'' →
    EncodesAll s handleToNamespace current t (m :: ms) (b ++ bs) t''

/-- The range and the handles of sender and receiver that a message is about. -/
def rangeOf (m : Msg) : Option (Range3d × UInt64 × UInt64) :=
  match m.body with
  | .reconciliationSendFingerprint range _ sender receiver _ _ => some (range, sender, receiver)
  | .reconciliationAnnounceEntries range _ _ _ sender receiver _ _ => some (range, sender, receiver)
  | _ => none

/-- The range announced by a message and the receiver's handle. -/
def announcedOf (m : Msg) : Option (Range3d × UInt64) :=
  match m.body with
  | .reconciliationAnnounceEntries range _ _ _ _ receiver _ _ => some (range, receiver)
  | _ => none

/-- The entry and the static token handle of a message of reconciliation. -/
def entryOf (m : Msg) : Option (Entry × UInt64) :=
  match m.body with
  | .reconciliationSendEntry entry _ staticTokenHandle _ => some (entry, staticTokenHandle)
  | _ => none

/-- What the last of the messages that has something says about it. -/
def latest {α : Type} (f : Msg → Option α) (ms : List Msg) : Option α := ms.reverse.findSome? f

/-- The type of the handle that a message binds. -/
def boundHandle : Body → Option HandleType
  | .paiBindFragment .. => some .intersection
  | .setupBindReadCapability .. => some .capability
  | .setupBindAreaOfInterest .. => some .areaOfInterest
  | .setupBindStaticToken .. => some .staticToken
  | .dataBindPayloadRequest .. => some .payloadRequest
  | _ => none

/-- The channel for the messages that bind handles of a type. -/
def bindingChannel : HandleType → Channel
  | .intersection => .intersection
  | .capability => .capability
  | .areaOfInterest => .areaOfInterest
  | .payloadRequest => .payloadRequest
  | .staticToken => .staticToken

/-- The messages of reconciliation: the meaning of each depends on those before it. -/
def Reconciles : Body → Prop
  | .reconciliationSendFingerprint .. | .reconciliationAnnounceEntries .. | .reconciliationSendEntry ..
  | .reconciliationSendPayload .. | .reconciliationTerminatePayload => True
  | _ => False

/-- The messages that carry entries and payloads after reconciliation: the meaning of a piece of a
payload depends on the messages before it. -/
def CarriesData : Body → Prop
  | .dataSendEntry .. | .dataSendPayload .. | .dataReplyPayload .. => True
  | _ => False

/-- The messages that manage the guarantees of other channels and the handles. -/
def Manages : Body → Prop
  | .controlIssueGuarantee .. | .controlAbsolve .. | .controlPlead .. | .controlAnnounceDropping ..
  | .controlApologise .. | .controlFree .. => True
  | _ => False

end Willow.Spec
