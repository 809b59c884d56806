import Verif.Model.Messages

/-!
# The tracker of reconciliation messages, the message encoder and the message loop

The tracker is defined in a file whose whole text is commented out
(`/repo/pkg/wgps/reconciliation/reconcile_msg_tracker.go`), though the encoder and the loop use
it; the commented text is what is modelled.
-/

namespace Willow

/-- `ReconcileMsgTracker`, `/repo/pkg/wgps/reconciliation/reconcile_msg_tracker.go:19-30`, without
`HandleToNamespaceId`, which is a parameter of the functions that call it. -/
structure Tracker where
  prevRange : Range3d
  prevSenderHandle : UInt64
  prevReceiverHandle : UInt64
  prevEntry : Entry
  prevToken : UInt64
  announcedRange : Range3d
  announcedNamespace : Bytes
  announcedEntriesRemaining : UInt64
  isAwaitingTermination : Bool
deriving Repr, DecidableEq

/-- The zero value `var tracker reconciliation.ReconcileMsgTracker`,
`/repo/pkg/wgps/decoding/decode_messages.go:154, 175`. -/
def zeroTracker : Tracker := ⟨zeroRange3d, 0, 0, zeroEntry, 0, zeroRange3d, [], 0, false⟩

/-- `DefaultRange3d`, `/repo/utils/ranges.go:825-840`. -/
def defaultRange3d (subspace : Bytes) : Range3d := ⟨⟨subspace, [], true⟩, ⟨[], [], true⟩, ⟨0, 0, true⟩⟩

/-- `DefaultEntry`, `/repo/utils/entries.go:515-528`. -/
def defaultEntry (ns subspace digest : Bytes) : Entry :=
  { namespaceId := ns, subspaceId := subspace, path := [], timestamp := 0, payloadLength := 0, payloadDigest := digest }

/-- `NewReconcileMsgTracker`, `/repo/pkg/wgps/reconciliation/reconcile_msg_tracker.go:32-42`. -/
def newTracker (ns subspace digest : Bytes) : Tracker :=
  { zeroTracker with
    prevRange := defaultRange3d subspace
    prevEntry := defaultEntry ns subspace digest
    announcedRange := defaultRange3d subspace
    announcedNamespace := ns }

/-- `OnSendFingerprint`, `/repo/pkg/wgps/reconciliation/reconcile_msg_tracker.go:44-49`. -/
def Tracker.onSendFingerprint (t : Tracker) (range : Range3d) (sender receiver : UInt64) : Tracker :=
  { t with prevRange := range, prevSenderHandle := sender, prevReceiverHandle := receiver }

/-- `OnAnnounceEntries`, `/repo/pkg/wgps/reconciliation/reconcile_msg_tracker.go:51-59`. -/
def Tracker.onAnnounceEntries (t : Tracker) (handleToNamespace : UInt64 → Bytes) (range : Range3d)
    (sender receiver count : UInt64) : Tracker :=
  { t with
    prevRange := range, prevSenderHandle := sender, prevReceiverHandle := receiver
    announcedRange := range, announcedNamespace := handleToNamespace receiver, announcedEntriesRemaining := count }

/-- `OnSendEntry`, `/repo/pkg/wgps/reconciliation/reconcile_msg_tracker.go:61-68`. -/
def Tracker.onSendEntry (t : Tracker) (entry : Entry) (staticTokenHandle : UInt64) : Tracker :=
  { t with
    prevEntry := entry, prevToken := staticTokenHandle
    announcedEntriesRemaining := t.announcedEntriesRemaining - 1, isAwaitingTermination := true }

/-- `OnTerminatePayload`, `/repo/pkg/wgps/reconciliation/reconcile_msg_tracker.go:70-72`. Nothing
calls it. -/
def Tracker.onTerminatePayload (t : Tracker) : Tracker := { t with isAwaitingTermination := false }

/-- `IsExpectingPayloadOrTermination`, `/repo/pkg/wgps/reconciliation/reconcile_msg_tracker.go:74-76`. -/
def Tracker.isExpectingPayloadOrTermination (t : Tracker) : Bool := t.isAwaitingTermination

/-- `IsExpectingReconciliationSendEntry`,
`/repo/pkg/wgps/reconciliation/reconcile_msg_tracker.go:78-83`. -/
def Tracker.isExpectingReconciliationSendEntry (t : Tracker) : Bool := decide (t.announcedEntriesRemaining > 0)

/-- `GetPrivy`, `/repo/pkg/wgps/reconciliation/reconcile_msg_tracker.go:85-101`. -/
def Tracker.getPrivy (t : Tracker) : Privy where
  prevSenderHandle := t.prevSenderHandle
  prevReceiverHandle := t.prevReceiverHandle
  prevRange := t.prevRange
  prevEntry := t.prevEntry
  prevStaticTokenHandle := t.prevToken
  announcedRange := t.announcedRange
  announcedNamespace := t.announcedNamespace

/-- `MsgLogicalChannels`, `/repo/pkg/wgps/channels/channels.go:7-32`. -/
def msgLogicalChannel : MsgKind → Channel
  | .paiBindFragment => .intersection
  | .paiReplyFragment => .intersection
  | .setupBindReadCapability => .capability
  | .setupBindAreaOfInterest => .areaOfInterest
  | .setupBindStaticToken => .staticToken
  | .reconciliationSendFingerprint => .reconciliation
  | .reconciliationAnnounceEntries => .reconciliation
  | .reconciliationSendEntry => .reconciliation
  | .reconciliationSendPayload => .reconciliation
  | .reconciliationTerminatePayload => .reconciliation
  | .dataSendEntry => .data
  | .dataSendPayload => .data
  | .dataReplyPayload => .data
  | .dataBindPayloadRequest => .payloadRequest
  | _ => .control

/-- The switch of `MessageEncoder.Encode`, `/repo/pkg/wgps/encoding/message_encoder.go:95-271`: the
bytes and the new tracker. `current` is what `GetCurrentlySentEntry` returns. The cases of two
setup messages are commented out and yield no bytes (lines 133-151). -/
def encodeBody (s : Schemes) (handleToNamespace : UInt64 → Bytes) (current : Entry) (t : Tracker) :
    Body → Res (Bytes × Tracker)
  | .controlIssueGuarantee amount channel => .ok (encodeControlIssueGuarantee amount channel, t)
  | .controlAbsolve amount channel => .ok (encodeControlAbsolve amount channel, t)
  | .controlPlead target channel => .ok (encodeControlPlead target channel, t)
  | .controlAnnounceDropping channel => .ok (encodeControlAnnounceDropping channel, t)
  | .controlApologise channel => .ok (encodeControlApologise channel, t)
  | .controlFree handle mine handleType => .ok (encodeControlFree handle mine handleType, t)
  | .commitmentReveal nonce => .ok (encodeCommitmentReveal nonce, t)
  | .paiBindFragment groupMember isSecondary => .ok (encodePaiBindFragment s groupMember isSecondary, t)
  | .paiReplyFragment handle groupMember => .ok (encodePaiReplyFragment s handle groupMember, t)
  | .paiRequestSubspaceCapability handle => .ok (encodePaiRequestSubspaceCapability handle, t)
  | .paiReplySubspaceCapability handle capability signature =>
    .ok (encodePaiReplySubspaceCapability s handle capability signature, t)
  | .setupBindReadCapability .. => .ok ([], t)
  | .setupBindAreaOfInterest .. => .ok ([], t)
  | .setupBindStaticToken token => .ok (encodeSetupBindStaticToken s token, t)
  | .reconciliationSendFingerprint range fingerprint sender receiver covers _ => do
    let bytes ← encodeReconciliationSendFingerprint s t.getPrivy range fingerprint sender receiver covers
    .ok (bytes, t.onSendFingerprint range sender receiver)
  | .reconciliationAnnounceEntries range count wantResponse willSort sender receiver covers _ => do
    let bytes ← encodeReconciliationAnnounceEntries s t.getPrivy range count wantResponse willSort sender receiver covers
    .ok (bytes, t.onAnnounceEntries handleToNamespace range sender receiver count)
  | .reconciliationSendEntry entry available staticTokenHandle dynamicToken => do
    let bytes ← encodeReconciliationSendEntry s t.getPrivy entry available staticTokenHandle dynamicToken
    .ok (bytes, t.onSendEntry entry staticTokenHandle)
  | .reconciliationSendPayload amount bytes => .ok (encodeReconciliationSendPayload s amount bytes, t)
  | .reconciliationTerminatePayload => .ok (encodeReconciliationTerminatePayload, t)
  | .dataSendEntry entry staticTokenHandle dynamicToken offset => do
    let bytes ← encodeDataSendEntry s current entry staticTokenHandle dynamicToken offset
    .ok (bytes, t)
  | .dataSendPayload amount bytes => .ok (encodeDataSendPayload amount bytes, t)
  | .dataSetMetadata isEager sender receiver => .ok (encodeDataSetEagerness isEager sender receiver, t)
  | .dataBindPayloadRequest entry offset capability => do
    let bytes ← encodeDataBindPayloadRequest s current entry offset capability
    .ok (bytes, t)
  | .dataReplyPayload handle => .ok (encodeDataReplyPayload handle, t)

/-- `MessageEncoder.Encode`, `/repo/pkg/wgps/encoding/message_encoder.go:88-274`: the channel, the
bytes that are pushed on it and the new tracker. -/
def encodeMessage (s : Schemes) (handleToNamespace : UInt64 → Bytes) (current : Entry) (t : Tracker) (m : Msg) :
    Res ((Channel × Bytes) × Tracker) := do
  let (bytes, t) ← encodeBody s handleToNamespace current t m.body
  .ok ((msgLogicalChannel m.kind, bytes), t)

/-- A branch of the loop of `DecodeMessages`. -/
inductive Branch where
  /-- a decoder is called -/
  | decoder (kind : MsgKind)
  /-- the call of the decoder is commented out -/
  | commentedOut (kind : MsgKind)
  /-- one byte is dropped and an empty send-payload message is emitted -/
  | emptySendPayload
  /-- the last branch -/
  | unknown
deriving Repr, DecidableEq

/-- The tests of the loop of `DecodeMessages`, `/repo/pkg/wgps/decoding/decode_messages.go:103-212`.
The two flags are what `IsExpectingPayloadOrTermination` and `IsExpectingReconciliationSendEntry`
return. -/
def branch (expectsPayload expectsEntry : Bool) (b : UInt8) : Branch :=
  if b == 0x0 then .commentedOut .commitmentReveal
  else if b &&& 0x98 == 0x98 then .decoder .controlApologise
  else if b &&& 0x90 == 0x90 then .decoder .controlAnnounceDropping
  else if b &&& 0x8c == 0x8c then .decoder .controlFree
  else if b &&& 0x88 == 0x88 then .decoder .controlPlead
  else if b &&& 0x84 == 0x84 then .decoder .controlAbsolve
  else if b &&& 0x80 == 0x80 then .decoder .controlIssueGuarantee
  else if b &&& 0x70 == 0x70 then .decoder .dataReplyPayload
  else if b &&& 0x6c == 0x6c then .decoder .dataBindPayloadRequest
  else if b &&& 0x50 == 0x50 then
    if expectsPayload then
      if b &&& 0x58 == 0x58 then .emptySendPayload else .decoder .reconciliationSendPayload
    else if expectsEntry then .decoder .reconciliationSendEntry
    else .decoder .reconciliationAnnounceEntries
  else if b &&& 0x40 == 0x40 then .decoder .reconciliationSendFingerprint
  else if b &&& 0x30 == 0x30 then .commentedOut .setupBindStaticToken
  else if b &&& 0x28 == 0x28 then .commentedOut .setupBindAreaOfInterest
  else if b &&& 0x20 == 0x20 then .commentedOut .setupBindReadCapability
  else if b &&& 0x10 == 0x10 then .decoder .paiReplySubspaceCapability
  else if b &&& 0xc == 0xc then .decoder .paiRequestSubspaceCapability
  else if b &&& 0x8 == 0x8 then .decoder .paiReplyFragment
  else if b &&& 0x4 == 0x4 then .decoder .paiBindFragment
  else .unknown

/-- What `DecodeMessages` is given, `/repo/pkg/wgps/decoding/decode_messages.go:13-60`. -/
structure LoopOpts where
  schemes : Schemes
  handleToNamespace : UInt64 → Bytes
  aoiRange : UInt64 → UInt64 → Range3d
  aois : AoiLookup
  currentlyReceived : Entry

/-- The decoders called with the options that the loop gives them. `DecodeDataBindPayloadRequest`
gets no `DecodePayloadDigest` (lines 133-140) and `DecodeReconciliationAnnounceEntries` gets no
`GetPrivy` (lines 166-169): calling these nil functions panics. The other two decoders of
reconciliation messages get `GetPrivy` of a tracker that is new each time (lines 154, 175). -/
def loopDecoder (o : LoopOpts) : MsgKind → Dec Msg
  | .controlApologise => decodeControlApologise
  | .controlAnnounceDropping => decodeControlAnnounceDropping
  | .controlFree => decodeControlFree
  | .controlPlead => decodeControlPlead
  | .controlAbsolve => decodeControlAbsolve
  | .controlIssueGuarantee => decodeControlIssueGuarantee
  | .dataReplyPayload => decodeDataReplyPayload
  | .dataBindPayloadRequest =>
    decodeDataBindPayloadRequest { o.schemes with pd := { o.schemes.pd with decStream := Dec.lift .crash } } o.aois
      o.currentlyReceived
  | .reconciliationSendPayload => decodeReconciliationSendPayload
  | .reconciliationSendEntry => decodeReconciliationSendEntry o.schemes zeroTracker.getPrivy
  | .reconciliationAnnounceEntries => Dec.lift .crash
  | .reconciliationSendFingerprint => decodeReconciliationSendFingerprint o.schemes zeroTracker.getPrivy o.aoiRange
  | .paiReplySubspaceCapability => decodePaiReplySubspaceCapability o.schemes
  | .paiRequestSubspaceCapability => decodePaiRequestSubspaceCapability
  | .paiReplyFragment => decodePaiReplyFragment o.schemes
  | .paiBindFragment => decodePaiBindFragment o.schemes
  | _ => Dec.lift .err

/-- What the loop tells the tracker about a decoded message,
`/repo/pkg/wgps/decoding/decode_messages.go:163, 170, 184`. -/
def trackDecoded (o : LoopOpts) (t : Tracker) (m : Msg) : Tracker :=
  match m.body with
  | .reconciliationSendFingerprint range _ sender receiver _ _ => t.onSendFingerprint range sender receiver
  | .reconciliationAnnounceEntries range count _ _ sender receiver _ _ =>
    t.onAnnounceEntries o.handleToNamespace range sender receiver count
  | .reconciliationSendEntry entry _ staticTokenHandle _ => t.onSendEntry entry staticTokenHandle
  | _ => t

/-- What is done in each branch of the loop of `DecodeMessages`,
`/repo/pkg/wgps/decoding/decode_messages.go:108-213`: the values that are sent to the out channel
(`none` is nil, line 213) and the new tracker. An error of a decoder ends the model's run; the
decoders of the code ignore errors. -/
def loopBranch (o : LoopOpts) (t : Tracker) : Branch → Dec (List (Option Msg) × Tracker)
  | .decoder kind => do
    let m ← loopDecoder o kind
    return ([some m, none], trackDecoded o t m)
  | .emptySendPayload => do
    prune 1
    return ([some ⟨.reconciliationSendPayload, .reconciliationSendPayload 0 []⟩, none], t)
  | .commentedOut _ => return ([none], t)
  | .unknown => return ([none], t)

/-- One iteration of the loop of `DecodeMessages`, `/repo/pkg/wgps/decoding/decode_messages.go:103-214`. -/
def loopIteration (o : LoopOpts) (t : Tracker) : Dec (List (Option Msg) × Tracker) := do
  let received ← nextAbsolute 1
  let firstByte ← Dec.lift (byteAt received 0)
  loopBranch o t (branch t.isExpectingPayloadOrTermination t.isExpectingReconciliationSendEntry firstByte)

/-- `n` iterations of the loop of `DecodeMessages`, started with tracker `t`
(`/repo/pkg/wgps/decoding/decode_messages.go:103`). -/
def loopRun (o : LoopOpts) : Nat → Tracker → Dec (List (Option Msg) × Tracker)
  | 0, t => pure ([], t)
  | n + 1, t => do
    let (out, t) ← loopIteration o t
    let (outs, t) ← loopRun o n t
    return (out ++ outs, t)

end Willow
