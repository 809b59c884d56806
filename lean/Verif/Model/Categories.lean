import Verif.Model.MessageLoop

/-!
# Message types categorised by logical channel

`/repo/pkg/wgps/wgpstypes/types.go:475-541`: interfaces with one method each, which the message
types of a category implement. A type implements an interface if it has the method, so this is a
relation, not a function.
-/

namespace Willow

/-- The interfaces `ReconciliationChannelMsg`, …, `StaticTokenChannelMsg` and `NoChannelMsg`,
`/repo/pkg/wgps/wgpstypes/types.go:476-529`. -/
inductive Category where
  | reconciliation
  | data
  | intersection
  | capability
  | areaOfInterest
  | payloadRequest
  | staticToken
  | noChannel
deriving Repr, DecidableEq

/-- Whether the type of a message has the method of an interface,
`/repo/pkg/wgps/wgpstypes/types.go:480-541`. -/
def implements : Body → Category → Bool
  | .reconciliationSendFingerprint .., .reconciliation => true
  | .reconciliationAnnounceEntries .., .reconciliation => true
  | .reconciliationSendEntry .., .reconciliation => true
  | .reconciliationSendPayload .., .reconciliation => true
  | .reconciliationTerminatePayload, .reconciliation => true
  | .dataSendEntry .., .data => true
  | .dataReplyPayload .., .data => true
  | .dataSendPayload .., .data => true
  | .paiBindFragment .., .intersection => true
  | .setupBindReadCapability .., .capability => true
  | .setupBindAreaOfInterest .., .areaOfInterest => true
  | .dataBindPayloadRequest .., .payloadRequest => true
  | .setupBindStaticToken .., .staticToken => true
  | .controlIssueGuarantee .., .noChannel => true
  | .controlAbsolve .., .noChannel => true
  | .controlPlead .., .noChannel => true
  | .controlAnnounceDropping .., .noChannel => true
  | .controlApologise .., .noChannel => true
  | .controlFree .., .noChannel => true
  | .commitmentReveal .., .noChannel => true
  | .paiReplyFragment .., .noChannel => true
  | .paiRequestSubspaceCapability .., .noChannel => true
  | .paiReplySubspaceCapability .., .noChannel => true
  | .dataSetMetadata .., .noChannel => true
  | _, _ => false

end Willow
