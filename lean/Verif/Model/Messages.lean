import Verif.Model.RelativeErrors

/-! Model of the message encoders and decoders, `/repo/pkg/wgps/encoding/*.go` and
`/repo/pkg/wgps/decoding/*.go`.

`/repo/pkg/wgps/reconciliation/reconcile_msg_tracker.go` is commented out as a whole, so
`message_encoder.go` and `decode_messages.go` refer to missing names and do not compile; the text
of the tracker is modelled as it stands in the comment.

Group members, capabilities, signatures, tokens and fingerprints are byte strings with a `Codec`.
A channel returned by a stream decoder delivers one value, so it is a plain result. -/

namespace Willow

/-- `Channel`, `/repo/pkg/wgps/wgpstypes/types.go:70-88`. -/
inductive Channel where
  | control
  | reconciliation
  | data
  | intersection
  | capability
  | areaOfInterest
  | payloadRequest
  | staticToken
deriving Repr, DecidableEq

/-- `HandleType`, `/repo/pkg/wgps/wgpstypes/types.go:52-68`. -/
inductive HandleType where
  | intersection
  | capability
  | areaOfInterest
  | payloadRequest
  | staticToken
deriving Repr, DecidableEq

/-- `MsgKind`, `/repo/pkg/wgps/wgpstypes/types.go:90-117`. -/
inductive MsgKind where
  | commitmentReveal
  | paiBindFragment
  | paiReplyFragment
  | paiRequestSubspaceCapability
  | paiReplySubspaceCapability
  | setupBindReadCapability
  | setupBindAreaOfInterest
  | setupBindStaticToken
  | reconciliationSendFingerprint
  | reconciliationAnnounceEntries
  | reconciliationSendEntry
  | reconciliationSendPayload
  | reconciliationTerminatePayload
  | dataSendEntry
  | dataSendPayload
  | dataSetMetadata
  | dataBindPayloadRequest
  | dataReplyPayload
  | controlIssueGuarantee
  | controlAbsolve
  | controlPlead
  | controlAnnounceDropping
  | controlApologise
  | controlFree
deriving Repr, DecidableEq

/-- The `Data` of the message types, `/repo/pkg/wgps/wgpstypes/types.go:119-368`; the
constructor is the Go type of the message. -/
inductive Body where
  | commitmentReveal (nonce : Bytes)
  | paiBindFragment (groupMember : Bytes) (isSecondary : Bool)
  | paiReplyFragment (handle : UInt64) (groupMember : Bytes)
  | paiRequestSubspaceCapability (handle : UInt64)
  | paiReplySubspaceCapability (handle : UInt64) (capability signature : Bytes)
  | setupBindReadCapability (capability : Bytes) (handle : UInt64) (signature : Bytes)
  | setupBindAreaOfInterest (aoi : AreaOfInterest) (authorisation : UInt64)
  | setupBindStaticToken (token : Bytes)
  | reconciliationSendFingerprint (range : Range3d) (fingerprint : Bytes) (senderHandle receiverHandle covers : UInt64)
      (doesCover : Bool)
  | reconciliationAnnounceEntries (range : Range3d) (count : UInt64) (wantResponse willSort : Bool)
      (senderHandle receiverHandle covers : UInt64) (doesCover : Bool)
  | reconciliationSendEntry (entry : Entry) (available staticTokenHandle : UInt64) (dynamicToken : Bytes)
  | reconciliationSendPayload (amount : UInt64) (bytes : Bytes)
  | reconciliationTerminatePayload
  | dataSendEntry (entry : Entry) (staticTokenHandle : UInt64) (dynamicToken : Bytes) (offset : UInt64)
  | dataSendPayload (amount : UInt64) (bytes : Bytes)
  | dataSetMetadata (isEager : Bool) (senderHandle receiverHandle : UInt64)
  | dataBindPayloadRequest (entry : Entry) (offset capability : UInt64)
  | dataReplyPayload (handle : UInt64)
  | controlIssueGuarantee (amount : UInt64) (channel : Channel)
  | controlAbsolve (amount : UInt64) (channel : Channel)
  | controlPlead (target : UInt64) (channel : Channel)
  | controlAnnounceDropping (channel : Channel)
  | controlApologise (channel : Channel)
  | controlFree (handle : UInt64) (mine : Bool) (handleType : HandleType)
deriving Repr, DecidableEq

/-- A message: its `Kind` and its `Data`. -/
structure Msg where
  kind : MsgKind
  body : Body
deriving Repr, DecidableEq

/-- `ReconciliationPrivy`, `/repo/pkg/wgps/wgpstypes/types.go:555-565`. -/
structure Privy where
  prevSenderHandle : UInt64
  prevReceiverHandle : UInt64
  prevRange : Range3d
  prevStaticTokenHandle : UInt64
  prevEntry : Entry
  announcedRange : Range3d
  announcedNamespace : Bytes
deriving Repr, DecidableEq

/-- The parts of `SyncSchemes` (`/repo/pkg/wgps/wgpstypes/types.go:568-597`) that the encoders
and decoders use. Fingerprints are equal (`Fingerprint.IsEqual`) when they are the same bytes. -/
structure Schemes where
  ns : Codec
  ss : Codec
  pd : Codec
  eqNs : Bytes → Bytes → Bool
  ordS : Bytes → Bytes → Ordering
  p : PathParams
  dynamicToken : Codec
  staticToken : Codec
  groupMember : Codec
  subspaceCap : Codec
  subspaceSig : Codec
  readCap : Codec
  syncSig : Codec
  fingerprint : Codec
  neutral : Bytes

/-- The Go index expression `b[i]`. -/
def byteAt (b : Bytes) (i : Nat) : Res UInt8 :=
  match b[i]? with
  | some x => .ok x
  | none => .crash

/-- `CompactWidthOr`, `/repo/pkg/wgps/encoding/utils.go:10-12` (the map of lines 3-8 gives 0 for
other keys). -/
def compactWidthOr (byte compactWidth : Nat) : Nat := byte ||| compactWidthEndMask compactWidth

/-- `CompactWidthFromEndOfByte`, `/repo/pkg/wgps/decoding/util.go:3-13`. -/
def compactWidthFromEndOfByte (byte : UInt8) : Nat :=
  if byte &&& 0x3 == 0x3 then 8 else if byte &&& 0x2 == 0x2 then 4 else if byte &&& 0x1 == 0x1 then 2 else 1

/-- `v, _ := utils.DecodeIntMax64(acc[i : i+w])`. -/
def compactAt (acc : Bytes) (i w : Nat) : Dec UInt64 := do
  let bs ← sliceArray acc i (i + w)
  let v ← Dec.liftD (decodeIntMax64 bs) 0
  return UInt64.ofNat v

/-! ### Control messages -/

/-- `ChannelMaskStart`, `/repo/pkg/wgps/encoding/control.go:8-27`. -/
def channelMaskStart (mask : UInt8) : Channel → UInt8
  | .reconciliation => mask
  | .data => mask ||| 0x20
  | .intersection => mask ||| 0x40
  | .capability => mask ||| 0x60
  | .areaOfInterest => mask ||| 0x80
  | .payloadRequest => mask ||| 0xa0
  | .staticToken => mask ||| 0xc0
  | .control => mask

/-- `ChannelMaskEnd`, `/repo/pkg/wgps/encoding/control.go:29-49`. -/
def channelMaskEnd (mask : UInt8) : Channel → UInt8
  | .reconciliation => mask
  | .data => mask ||| 0x1
  | .intersection => mask ||| 0x2
  | .capability => mask ||| 0x3
  | .areaOfInterest => mask ||| 0x4
  | .payloadRequest => mask ||| 0x5
  | .staticToken => mask ||| 0x6
  | .control => mask

/-- `HandleMask`, `/repo/pkg/wgps/encoding/control.go:50-66`. -/
def handleMask (mask : UInt8) : HandleType → UInt8
  | .intersection => mask
  | .capability => mask ||| 0x20
  | .areaOfInterest => mask ||| 0x40
  | .payloadRequest => mask ||| 0x60
  | .staticToken => mask ||| 0x80

/-- The `switch` on a width that picks one of four consecutive headers,
`/repo/pkg/wgps/encoding/control.go:73-82` and the others like it. -/
def widthHeader (width : Nat) (h1 h2 h4 h8 : UInt8) : UInt8 :=
  if width = 1 then h1 else if width = 2 then h2 else if width = 4 then h4 else h8

/-- `EncodeControlIssueGuarantee`, `/repo/pkg/wgps/encoding/control.go:68-86`. -/
def encodeControlIssueGuarantee (amount : UInt64) (channel : Channel) : Bytes :=
  [widthHeader (getWidthMax64Int amount.toNat) 0x80 0x81 0x82 0x83, channelMaskStart 0 channel] ++
    encodeIntMax64 amount.toNat

/-- `EncodeControlAbsolve`, `/repo/pkg/wgps/encoding/control.go:88-105`. -/
def encodeControlAbsolve (amount : UInt64) (channel : Channel) : Bytes :=
  [widthHeader (getWidthMax64Int amount.toNat) 0x84 0x85 0x86 0x87, channelMaskStart 0 channel] ++
    encodeIntMax64 amount.toNat

/-- `EncodeControlPlead`, `/repo/pkg/wgps/encoding/control.go:107-123`. -/
def encodeControlPlead (target : UInt64) (channel : Channel) : Bytes :=
  [widthHeader (getWidthMax64Int target.toNat) 0x88 0x89 0x8a 0x8b, channelMaskStart 0 channel] ++
    encodeIntMax64 target.toNat

/-- `EncodeControlAnnounceDropping`, `/repo/pkg/wgps/encoding/control.go:125-127`. -/
def encodeControlAnnounceDropping (channel : Channel) : Bytes := [channelMaskEnd 0x90 channel]

/-- `EncodeControlApologise`, `/repo/pkg/wgps/encoding/control.go:129-131`. -/
def encodeControlApologise (channel : Channel) : Bytes := [channelMaskEnd 0x98 channel]

/-- `EncodeControlFree`, `/repo/pkg/wgps/encoding/control.go:133-157`. -/
def encodeControlFree (handle : UInt64) (mine : Bool) (handleType : HandleType) : Bytes :=
  let handleTypeByte := if mine then handleMask 0 handleType ||| 0x10 else handleMask 0 handleType
  [widthHeader (getWidthMax64Int handle.toNat) 0x8c 0x8d 0x8e 0x8f, handleTypeByte] ++ encodeIntMax64 handle.toNat

/-- `DecodeChannelFromBeginningOfByte`, `/repo/pkg/wgps/decoding/control.go:8-24`. -/
def decodeChannelFromBeginningOfByte (b : UInt8) : Channel :=
  if b &&& 0xc0 == 0xc0 then .staticToken
  else if b &&& 0xa0 == 0xa0 then .payloadRequest
  else if b &&& 0x80 == 0x80 then .areaOfInterest
  else if b &&& 0x60 == 0x60 then .capability
  else if b &&& 0x40 == 0x40 then .intersection
  else if b &&& 0x20 == 0x20 then .data
  else .reconciliation

/-- `DecodeChannelFromEndOfByte`, `/repo/pkg/wgps/decoding/control.go:26-42`. -/
def decodeChannelFromEndOfByte (b : UInt8) : Channel :=
  if b &&& 0x6 == 0x6 then .staticToken
  else if b &&& 0x5 == 0x5 then .payloadRequest
  else if b &&& 0x4 == 0x4 then .areaOfInterest
  else if b &&& 0x3 == 0x3 then .capability
  else if b &&& 0x2 == 0x2 then .intersection
  else if b &&& 0x1 == 0x1 then .data
  else .reconciliation

/-- `DecodeHandleTypeFromBeginningOfByte`, `/repo/pkg/wgps/decoding/control.go:44-56`. -/
def decodeHandleTypeFromBeginningOfByte (b : UInt8) : HandleType :=
  if b &&& 0x80 == 0x80 then .staticToken
  else if b &&& 0x60 == 0x60 then .payloadRequest
  else if b &&& 0x40 == 0x40 then .areaOfInterest
  else if b &&& 0x20 == 0x20 then .capability
  else .intersection

/-- `DecodeControlIssueGuarantee`, `/repo/pkg/wgps/decoding/control.go:58-76`. The kind of the
result is that of an absolve message (line 70). -/
def decodeControlIssueGuarantee : Dec Msg := do
  let width1 ← nextAbsolute 1
  let b ← Dec.lift (byteAt width1 0)
  let w := compactWidthFromEndOfByte b
  let width2 ← nextAbsolute 2
  let c ← Dec.lift (byteAt width2 1)
  let width3 ← nextAbsolute (2 + w)
  let amount ← compactAt width3 2 w
  prune (2 + w)
  return ⟨.controlAbsolve, .controlIssueGuarantee amount (decodeChannelFromBeginningOfByte c)⟩

/-- `DecodeControlAbsolve`, `/repo/pkg/wgps/decoding/control.go:78-96`. -/
def decodeControlAbsolve : Dec Msg := do
  let width1 ← nextAbsolute 1
  let b ← Dec.lift (byteAt width1 0)
  let w := compactWidthFromEndOfByte b
  let width2 ← nextAbsolute 2
  let c ← Dec.lift (byteAt width2 1)
  let width3 ← nextAbsolute (2 + w)
  let amount ← compactAt width3 2 w
  prune (2 + w)
  return ⟨.controlAbsolve, .controlAbsolve amount (decodeChannelFromBeginningOfByte c)⟩

/-- `DecodeControlPlead`, `/repo/pkg/wgps/decoding/control.go:98-116`. -/
def decodeControlPlead : Dec Msg := do
  let width1 ← nextAbsolute 1
  let b ← Dec.lift (byteAt width1 0)
  let w := compactWidthFromEndOfByte b
  let width2 ← nextAbsolute 2
  let c ← Dec.lift (byteAt width2 1)
  let width3 ← nextAbsolute (2 + w)
  let target ← compactAt width3 2 w
  prune (2 + w)
  return ⟨.controlPlead, .controlPlead target (decodeChannelFromBeginningOfByte c)⟩

/-- `DecodeControlAnnounceDropping`, `/repo/pkg/wgps/decoding/control.go:118-131`. -/
def decodeControlAnnounceDropping : Dec Msg := do
  let width1 ← nextAbsolute 1
  let b ← Dec.lift (byteAt width1 0)
  prune 1
  return ⟨.controlAnnounceDropping, .controlAnnounceDropping (decodeChannelFromEndOfByte b)⟩

/-- `DecodeControlApologise`, `/repo/pkg/wgps/decoding/control.go:133-146`. -/
def decodeControlApologise : Dec Msg := do
  let width1 ← nextAbsolute 1
  let b ← Dec.lift (byteAt width1 0)
  prune 1
  return ⟨.controlApologise, .controlApologise (decodeChannelFromEndOfByte b)⟩

/-- `DecodeControlFree`, `/repo/pkg/wgps/decoding/control.go:148-172`. `Mine` is always true
(line 168). -/
def decodeControlFree : Dec Msg := do
  let width1 ← nextAbsolute 1
  let b ← Dec.lift (byteAt width1 0)
  let w := compactWidthFromEndOfByte b
  let width2 ← nextAbsolute 2
  let c ← Dec.lift (byteAt width2 1)
  let width3 ← nextAbsolute (2 + w)
  let handle ← compactAt width3 2 w
  prune (2 + w)
  return ⟨.controlFree, .controlFree handle true (decodeHandleTypeFromBeginningOfByte c)⟩

/-! ### Data messages -/

/-- `int(x)` of a `uint64`, for a lookup in the map of widths: values from 2^63 on are negative
and in no map; they are represented by 0, which is in no map either. -/
def widthKey (x : UInt64) : Nat := if x.toNat < 2 ^ 63 then x.toNat else 0

/-- `EncodeDataSendEntry`, `/repo/pkg/wgps/encoding/data.go:10-78`. The width of the static
token is looked up with the handle itself (line 24), that of the offset with the shifted width
(line 39), and the offset is never written (line 56). -/
def encodeDataSendEntry (s : Schemes) (current : Entry) (entry : Entry) (staticTokenHandle : UInt64)
    (dynamicToken : Bytes) (offset : UInt64) : Res Bytes := do
  let firstByte := byteOf (0x60 ||| compactWidthOr 0 (widthKey staticTokenHandle))
  let encodeOffsetFlag := if offset ≠ 0 ∧ offset ≠ entry.payloadLength then 0x80 else 0x0
  let compactWidthOffsetFlag :=
    if offset = 0 then 0x0
    else if offset = entry.payloadLength then 0x20
    else compactWidthOr 0 (getWidthMax64Int offset.toNat <<< 5)
  let secondByte := byteOf (encodeOffsetFlag ||| compactWidthOffsetFlag ||| 0x10 ||| 0x0 ||| 0x0)
  let encodedEntry ← encodeEntryRelativeEntry s.ns s.ss s.pd s.eqNs s.ordS s.p entry current
  .ok ([firstByte, secondByte] ++ encodeIntMax64 staticTokenHandle.toNat ++ s.dynamicToken.enc dynamicToken ++
    encodedEntry)

/-- `EncodeDataSendPayload`, `/repo/pkg/wgps/encoding/data.go:80-85`. -/
def encodeDataSendPayload (amount : UInt64) (bytes : Bytes) : Bytes :=
  [byteOf (compactWidthOr 0x64 (getWidthMax64Int amount.toNat))] ++ encodeIntMax64 amount.toNat ++ bytes

/-- `EncodeDataSetEagerness`, `/repo/pkg/wgps/encoding/data.go:87-103`. -/
def encodeDataSetEagerness (isEager : Bool) (senderHandle receiverHandle : UInt64) : Bytes :=
  let firstByte := byteOf (0x68 ||| if isEager then 0x2 else 0x0)
  let secondByte := compactWidthOr 0x0 (getWidthMax64Int senderHandle.toNat) <<< 2
  let secondByte := compactWidthOr secondByte (getWidthMax64Int receiverHandle.toNat) <<< 4
  [firstByte, byteOf secondByte] ++ encodeIntMax64 senderHandle.toNat ++ encodeIntMax64 receiverHandle.toNat

/-- `EncodeDataBindPayloadRequest`, `/repo/pkg/wgps/encoding/data.go:105-178`. -/
def encodeDataBindPayloadRequest (s : Schemes) (current : Entry) (entry : Entry) (offset capability : UInt64) :
    Res Bytes := do
  let firstByte := byteOf (compactWidthOr 0x6c (getWidthMax64Int capability.toNat))
  let encodedOffsetFlag := if offset ≠ 0 then 0x80 else 0x0
  let compactWidthOffset := if offset = 0 then 0x0 else compactWidthOr 0x0 (getWidthMax64Int offset.toNat) <<< 5
  let secondByte := byteOf (encodedOffsetFlag ||| compactWidthOffset ||| 0x10)
  let encodedOffset := if offset = 0 then [] else encodeIntMax64 offset.toNat
  let encodedEntry ← encodeEntryRelativeEntry s.ns s.ss s.pd s.eqNs s.ordS s.p entry current
  .ok ([firstByte, secondByte] ++ encodeIntMax64 capability.toNat ++ encodedOffset ++ encodedEntry)

/-- `EncodeDataReplyPayload`, `/repo/pkg/wgps/encoding/data.go:180-187`. -/
def encodeDataReplyPayload (handle : UInt64) : Bytes :=
  [byteOf (compactWidthOr 0x70 (getWidthMax64Int handle.toNat))] ++ encodeIntMax64 handle.toNat

/-- What the data decoders get of the outer entry: `AoiHandlesToArea`, `AoiHandlesToNamespace`
(`/repo/pkg/wgps/decoding/data.go:19-20, 198-199`). -/
structure AoiLookup where
  area : UInt64 → UInt64 → Area
  namespaceId : UInt64 → UInt64 → Bytes

/-- The entry of `DecodeDataSendEntry` and `DecodeDataBindPayloadRequest`,
`/repo/pkg/wgps/decoding/data.go:86-115, 252-281`. An error of
`DecodeStreamEntryInNamespaceArea` is ignored (106, 272); `DecodeStreamEntryRelativeEntry` returns none for the widths
1, 2, 4 and 8. -/
def decodeDataEntry (s : Schemes) (aois : AoiLookup) (current : Entry) (relative : Bool) (ws wr : Nat) : Dec Entry :=
  if relative then decodeStreamEntryRelativeEntry s.ns s.ss s.pd s.p current
  else do
    let received ← nextAbsolute (ws + wr)
    let senderHandle ← compactAt received 0 ws
    let receiverHandle ← compactAt received ws wr
    prune (ws + wr)
    (decodeStreamEntryInNamespaceAreaE s.ss s.pd s.p (aois.area senderHandle receiverHandle)
      (aois.namespaceId senderHandle receiverHandle)).ignoring zeroEntry

/-- `DecodeDataSendEntry`, `/repo/pkg/wgps/decoding/data.go:23-134`. -/
def decodeDataSendEntry (s : Schemes) (aois : AoiLookup) (current : Entry) : Dec Msg := do
  let received ← nextAbsolute 2
  let firstByte ← Dec.lift (byteAt received 0)
  let secondByte ← Dec.lift (byteAt received 1)
  let wToken := compactWidthFromEndOfByte firstByte
  let isOffsetEncoded := secondByte &&& 0x80 == 0x80
  let isOffsetPayloadLength := !isOffsetEncoded && secondByte &&& 0x20 == 0x20
  let wOffset := if isOffsetEncoded then compactWidthFromEndOfByte ((secondByte &&& 0x60) >>> 5) else 0
  let relative := secondByte &&& 0x10 == 0x10
  let ws := if relative then 0 else compactWidthFromEndOfByte ((secondByte &&& 0xc) >>> 2)
  let wr := if relative then 0 else compactWidthFromEndOfByte secondByte
  prune 2
  let received ← nextAbsolute wToken
  let staticTokenHandle ← compactAt received 0 wToken
  prune wToken
  let dynamicToken ← s.dynamicToken.decStream
  let offset ←
    (if isOffsetEncoded then do
       let received ← nextAbsolute wOffset
       let offset ← compactAt received 0 wOffset
       prune wOffset
       return offset
     else pure 0)
  let entry ← decodeDataEntry s aois current relative ws wr
  let offset :=
    if !isOffsetEncoded then (if isOffsetPayloadLength then entry.payloadLength else 0) else offset
  return ⟨.dataSendEntry, .dataSendEntry entry staticTokenHandle dynamicToken offset⟩

/-- `DecodeDataSendPayload`, `/repo/pkg/wgps/decoding/data.go:136-160`. It waits for the header
only and prunes twice. The slice expression on line 149 is evaluated before the first `Prune` (147), which does not
change the memory it reads. From 2^63 on `int(Amount)` is negative and the slice expression panics. -/
def decodeDataSendPayload : Dec Msg := do
  let received ← nextAbsolute 1
  let header ← Dec.lift (byteAt received 0)
  let w := compactWidthFromEndOfByte header
  let received ← nextAbsolute (1 + w)
  let amount ← compactAt received 1 w
  if amount.toNat ≥ 2 ^ 63 then Dec.lift .crash
  else do
  let bytes ← sliceArray received (1 + w) (1 + w + amount.toNat)
  prune (1 + w + amount.toNat)
  prune (1 + w + amount.toNat)
  return ⟨.dataSendPayload, .dataSendPayload amount bytes⟩

/-- `DecodeDataSetEagerness`, `/repo/pkg/wgps/decoding/data.go:162-190`. -/
def decodeDataSetEagerness : Dec Msg := do
  let width ← nextAbsolute 2
  let firstByte ← Dec.lift (byteAt width 0)
  let secondByte ← Dec.lift (byteAt width 1)
  let isEager := firstByte &&& 0x2 == 0x2
  let ws := compactWidthFromEndOfByte (secondByte >>> 6)
  let wr := compactWidthFromEndOfByte (secondByte >>> 4)
  let width1 ← nextAbsolute (2 + ws + wr)
  let senderHandle ← compactAt width1 2 ws
  let receiverHandle ← compactAt width1 (2 + ws) wr
  prune (2 + ws + wr)
  return ⟨.dataSetMetadata, .dataSetMetadata isEager senderHandle receiverHandle⟩

/-- `DecodeDataBindPayloadRequest`, `/repo/pkg/wgps/decoding/data.go:202-290`. The bytes of the
offset are not waited for (line 242). -/
def decodeDataBindPayloadRequest (s : Schemes) (aois : AoiLookup) (current : Entry) : Dec Msg := do
  let width ← nextAbsolute 2
  let firstByte ← Dec.lift (byteAt width 0)
  let secondByte ← Dec.lift (byteAt width 1)
  let wCap := compactWidthFromEndOfByte firstByte
  let isOffsetEncoded := secondByte &&& 0x80 == 0x80
  let wOffset := if isOffsetEncoded then compactWidthFromEndOfByte ((secondByte &&& 0x60) >>> 5) else 0
  let relative := secondByte &&& 0x10 == 0x10
  let ws := if relative then 0 else compactWidthFromEndOfByte (secondByte >>> 2)
  let wr := if relative then 0 else compactWidthFromEndOfByte secondByte
  let width1 ← nextAbsolute (wCap + 2)
  let capability ← compactAt width1 2 wCap
  let offset ←
    (if isOffsetEncoded then do
       let offset ← compactAt width1 (2 + wCap) wOffset
       prune (2 + wCap + wOffset)
       return offset
     else do
       prune (2 + wCap)
       return 0)
  let entry ← decodeDataEntry s aois current relative ws wr
  return ⟨.dataBindPayloadRequest, .dataBindPayloadRequest entry offset capability⟩

/-- `DecodeDataReplyPayload`, `/repo/pkg/wgps/decoding/data.go:292-309`. -/
def decodeDataReplyPayload : Dec Msg := do
  let width ← nextAbsolute 1
  let b ← Dec.lift (byteAt width 0)
  let w := compactWidthFromEndOfByte b
  let width1 ← nextAbsolute (1 + w)
  let handle ← compactAt width1 1 w
  prune (1 + w)
  return ⟨.dataReplyPayload, .dataReplyPayload handle⟩

/-! ### Setup messages -/

/-- `EncodeSetupBindReadCapability`, `/repo/pkg/wgps/encoding/setup.go:10-28`; the codec of the
capability is the one for the given privy. -/
def encodeSetupBindReadCapability (s : Schemes) (capability : Bytes) (handle : UInt64) (signature : Bytes) : Bytes :=
  let h := s.p.conv handle.toNat
  [byteOf (compactWidthOr 0x20 (getWidthMax64Int h))] ++ encodeIntMax64 h ++ s.readCap.enc capability ++
    s.syncSig.enc signature

/-- `EncodeSetupBindAreaOfInterest`, `/repo/pkg/wgps/encoding/setup.go:30-83`. The flag for a
limit is combined with the width before the lookup (line 46). -/
def encodeSetupBindAreaOfInterest (s : Schemes) (outer : Area) (aoi : AreaOfInterest) (authorisation : UInt64) :
    Res Bytes := do
  let value := if aoi.maxCount.toNat % 2 ^ 8 ≠ 0 ∨ aoi.maxSize.toNat % 2 ^ 8 ≠ 0 then 0x4 else 0x0
  let auth := s.p.conv authorisation.toNat
  let header := byteOf (compactWidthOr 0x28 (getWidthMax64Int auth ||| value))
  let area ← encodeAreaInArea s.ss s.ordS s.p aoi.area outer
  if aoi.maxCount = 0 ∧ aoi.maxSize = 0 then .ok ([header] ++ encodeIntMax64 auth ++ area)
  else
    let count := s.p.conv aoi.maxCount.toNat
    let size := s.p.conv aoi.maxSize.toNat
    let shifted := byteOf (compactWidthOr 0 (getWidthMax64Int count)) <<< 2
    let lengths := byteOf (compactWidthOr shifted.toNat (getWidthMax64Int size)) <<< 4
    .ok ([header] ++ encodeIntMax64 auth ++ area ++ [lengths] ++ encodeIntMax64 count ++ encodeIntMax64 size)

/-- `EncodeSetupBindStaticToken`, `/repo/pkg/wgps/encoding/setup.go:85-94`. -/
def encodeSetupBindStaticToken (s : Schemes) (token : Bytes) : Bytes := [0x30] ++ s.staticToken.enc token

/-- `DecodeSetupBindReadCapability`, `/repo/pkg/wgps/decoding/setup.go:10-33`. `bytes.Array`
after a request is what the request returned. -/
def decodeSetupBindReadCapability (s : Schemes) : Dec Msg := do
  let array ← nextAbsolute 1
  let b ← Dec.lift (byteAt array 0)
  let w := compactWidthFromEndOfByte b
  let array ← nextAbsolute (1 + w)
  let handle ← compactAt array 1 w
  prune (1 + w)
  let capability ← s.readCap.decStream
  let signature ← s.syncSig.decStream
  return ⟨.setupBindReadCapability, .setupBindReadCapability capability handle signature⟩

/-- The zero `EncodingScheme` handed to the area decoder
(`/repo/pkg/wgps/decoding/setup.go:51`): its `DecodeStream` is nil, so calling it panics. -/
def nilCodec : Codec := ⟨fun _ => [], fun _ => .crash, fun _ => 0, Dec.lift .crash⟩

/-- `DecodeSetupBindAreaOfInterest`, `/repo/pkg/wgps/decoding/setup.go:35-94`. The error of
the area decoder is ignored (49); with widths of 1, 2, 4 and 8 and no codec for subspaces it returns none. -/
def decodeSetupBindAreaOfInterest (s : Schemes) (getPrivy : UInt64 → Area) : Dec Msg := do
  let array ← nextAbsolute 1
  let b ← Dec.lift (byteAt array 0)
  let hasALimit := 0x4 &&& b == 0x4
  let w := compactWidthFromEndOfByte b
  let array ← nextAbsolute (1 + w)
  let authHandle ← compactAt array 1 w
  prune (1 + w)
  let area ← decodeStreamAreaInArea nilCodec s.p (getPrivy authHandle)
  if !hasALimit then return ⟨.setupBindAreaOfInterest, .setupBindAreaOfInterest ⟨area, 0, 0⟩ authHandle⟩
  else do
    let array ← nextAbsolute 1
    let maxes ← Dec.lift (byteAt array 0)
    let wc := compactWidthFromEndOfByte (maxes >>> 6)
    let wsz := compactWidthFromEndOfByte (maxes >>> 4)
    let array ← nextAbsolute (1 + wc + wsz)
    let maxCount ← compactAt array 1 wc
    let maxSize ← compactAt array (1 + wc) wsz
    prune (1 + wc + wsz)
    return ⟨.setupBindAreaOfInterest, .setupBindAreaOfInterest ⟨area, maxCount, maxSize⟩ authHandle⟩

/-- `DecodeSetupBindStaticToken`, `/repo/pkg/wgps/decoding/setup.go:96-109`. -/
def decodeSetupBindStaticToken (s : Schemes) : Dec Msg := do
  let _ ← nextAbsolute 1
  prune 1
  let token ← s.staticToken.decStream
  return ⟨.setupBindStaticToken, .setupBindStaticToken token⟩

/-! ### Private area intersection -/

/-- `EncodeCommitmentReveal`, `/repo/pkg/wgps/encoding/pai.go:8-12`: no header. -/
def encodeCommitmentReveal (nonce : Bytes) : Bytes := nonce

/-- `EncodePaiBindFragment`, `/repo/pkg/wgps/encoding/pai.go:14-24`. -/
def encodePaiBindFragment (s : Schemes) (groupMember : Bytes) (isSecondary : Bool) : Bytes :=
  [if isSecondary then 6 else 4] ++ s.groupMember.enc groupMember

/-- `EncodePaiReplyFragment`, `/repo/pkg/wgps/encoding/pai.go:26-47`: the width of the handle is
written in place of the handle (line 43). -/
def encodePaiReplyFragment (s : Schemes) (handle : UInt64) (groupMember : Bytes) : Bytes :=
  let width := getWidthMax64Int handle.toNat
  [widthHeader width 0x8 0x9 0xa 0xb] ++ [byteOf width] ++ s.groupMember.enc groupMember

/-- `EncodePaiRequestSubspaceCapability`, `/repo/pkg/wgps/encoding/pai.go:49-68`. -/
def encodePaiRequestSubspaceCapability (handle : UInt64) : Bytes :=
  let width := getWidthMax64Int handle.toNat
  [widthHeader width 0xc 0xd 0xe 0xf] ++ [byteOf width]

/-- `EncodePaiReplySubspaceCapability`, `/repo/pkg/wgps/encoding/pai.go:70-95`. -/
def encodePaiReplySubspaceCapability (s : Schemes) (handle : UInt64) (capability signature : Bytes) : Bytes :=
  let width := getWidthMax64Int handle.toNat
  [widthHeader width 0x10 0x11 0x12 0x13] ++ [byteOf width] ++ s.subspaceCap.enc capability ++
    s.subspaceSig.enc signature

/-- `DecodeCommitmentReveal`, `/repo/pkg/wgps/decoding/commitment_reveal.go:8-20`. -/
def decodeCommitmentReveal (challengeLength : Nat) : Dec Msg := do
  let commitmentBytes ← nextAbsolute (1 + challengeLength)
  prune (1 + challengeLength)
  let nonce ← sliceArray commitmentBytes 1 (1 + challengeLength)
  return ⟨.commitmentReveal, .commitmentReveal nonce⟩

/-- `DecodePaiBindFragment`, `/repo/pkg/wgps/decoding/pai.go:9-25`. -/
def decodePaiBindFragment (s : Schemes) : Dec Msg := do
  let array ← nextAbsolute 1
  let b ← Dec.lift (byteAt array 0)
  let isSecondary := b == 0x6
  prune 1
  let groupMember ← s.groupMember.decStream
  return ⟨.paiBindFragment, .paiBindFragment groupMember isSecondary⟩

/-- `DecodePaiReplyFragment`, `/repo/pkg/wgps/decoding/pai.go:27-45`: the bytes of the handle are
not waited for. -/
def decodePaiReplyFragment (s : Schemes) : Dec Msg := do
  let array ← nextAbsolute 1
  let b ← Dec.lift (byteAt array 0)
  let w := compactWidthFromEndOfByte b
  let handle ← compactAt array 1 w
  prune (1 + w)
  let groupMember ← s.groupMember.decStream
  return ⟨.paiReplyFragment, .paiReplyFragment handle groupMember⟩

/-- `DecodePaiRequestSubspaceCapability`, `/repo/pkg/wgps/decoding/pai.go:47-62`. -/
def decodePaiRequestSubspaceCapability : Dec Msg := do
  let array ← nextAbsolute 1
  let b ← Dec.lift (byteAt array 0)
  let w := compactWidthFromEndOfByte b
  let handle ← compactAt array 1 w
  prune (1 + w)
  return ⟨.paiRequestSubspaceCapability, .paiRequestSubspaceCapability handle⟩

/-- `DecodePaiReplySubspaceCapability`, `/repo/pkg/wgps/decoding/pai.go:64-84`. -/
def decodePaiReplySubspaceCapability (s : Schemes) : Dec Msg := do
  let array ← nextAbsolute 1
  let b ← Dec.lift (byteAt array 0)
  let w := compactWidthFromEndOfByte b
  let handle ← compactAt array 1 w
  prune (1 + w)
  let capability ← s.subspaceCap.decStream
  let signature ← s.subspaceSig.decStream
  return ⟨.paiReplySubspaceCapability, .paiReplySubspaceCapability handle capability signature⟩

/-! ### Reconciliation messages -/

/-- `EncodeReconciliationSendFingerprint`, `/repo/pkg/wgps/encoding/reconciliation.go:10-124`.
The width of the receiver handle is written in the place of that of the sender handle and vice
versa (lines 57-67). -/
def encodeReconciliationSendFingerprint (s : Schemes) (privy : Privy) (range : Range3d) (fingerprint : Bytes)
    (senderHandle receiverHandle covers : UInt64) : Res Bytes := do
  let isNeutral := fingerprint == s.neutral
  let neutralMask : UInt8 := if isNeutral then 0x8 else 0x0
  let senderIsSame := senderHandle == privy.prevSenderHandle
  let receiverIsSame := receiverHandle == privy.prevReceiverHandle
  let prevSenderMask : UInt8 := if senderIsSame then 0x2 else 0x0
  let prevReceiverMask : UInt8 := if receiverIsSame then 0x1 else 0x0
  let headerByte : UInt8 := 0x40 ||| neutralMask ||| 0x4 ||| prevSenderMask ||| prevReceiverMask
  let sender := s.p.conv senderHandle.toNat
  let receiver := s.p.conv receiverHandle.toNat
  let lengths : UInt8 := 0x0
  let lengths := if !senderIsSame then lengths ||| byteOf (compactWidthOr 0x0 (getWidthMax64Int receiver) <<< 6)
    else lengths
  let lengths := if !receiverIsSame then lengths ||| byteOf (compactWidthOr 0x0 (getWidthMax64Int sender) <<< 4)
    else lengths
  let lengths := if covers ≠ 1 then
      byteOf (compactWidthOr (lengths ||| 0x8).toNat (getWidthMax64Int (s.p.conv covers.toNat)))
    else lengths
  let encodedCovers := if covers = 1 then [] else encodeIntMax64 (s.p.conv covers.toNat)
  let encodedSender := if senderIsSame then [] else encodeIntMax64 sender
  let encodedReceiver := if receiverIsSame then [] else encodeIntMax64 receiver
  let encodedFingerprint := if isNeutral then [] else s.fingerprint.enc fingerprint
  let encodedRange ← encodeRange3dRelative s.ss s.ordS s.p range privy.prevRange
  .ok ([0x40 ||| headerByte] ++ [lengths] ++ encodedCovers ++ encodedSender ++ encodedReceiver ++
    encodedFingerprint ++ encodedRange)

/-- `EncodeReconciliationAnnounceEntries`, `/repo/pkg/wgps/encoding/reconciliation.go:126-257`. -/
def encodeReconciliationAnnounceEntries (s : Schemes) (privy : Privy) (range : Range3d) (count : UInt64)
    (wantResponse willSort : Bool) (senderHandle receiverHandle covers : UInt64) : Res Bytes := do
  let wantResponseBit : UInt8 := if wantResponse then 0x8 else 0x0
  let senderIsSame := senderHandle == privy.prevSenderHandle
  let receiverIsSame := receiverHandle == privy.prevReceiverHandle
  let prevSenderMask : UInt8 := if senderIsSame then 0x2 else 0x0
  let prevReceiverMask : UInt8 := if receiverIsSame then 0x1 else 0x0
  let firstByte : UInt8 := 0x50 ||| wantResponseBit ||| 0x4 ||| prevSenderMask ||| prevReceiverMask
  let sender := s.p.conv senderHandle.toNat
  let receiver := s.p.conv receiverHandle.toNat
  let widthFlags : UInt8 :=
    if !senderIsSame && !receiverIsSame then
      byteOf (compactWidthOr (byteOf (compactWidthOr 0x0 (getWidthMax64Int sender)) <<< 2).toNat
        (getWidthMax64Int receiver)) <<< 4
    else if !senderIsSame && receiverIsSame then byteOf (compactWidthOr 0x0 (getWidthMax64Int sender)) <<< 6
    else if senderIsSame && !receiverIsSame then byteOf (compactWidthOr 0x0 (getWidthMax64Int receiver)) <<< 4
    else 0x0
  let cnt := s.p.conv count.toNat
  let countFlags : UInt8 := byteOf (compactWidthOr 0 (getWidthMax64Int cnt)) <<< 2
  let willSortFlag : UInt8 := if willSort then 0x2 else 0x0
  let coversNotNone : UInt8 := if covers ≠ 1 then 0x1 else 0x0
  let secondByte := widthFlags ||| countFlags ||| willSortFlag ||| coversNotNone
  let cov := s.p.conv covers.toNat
  let encodedCovers :=
    if covers = 1 then []
    else if covers ≥ 252 then [byteOf (compactWidthOr 0xfc (getWidthMax64Int cov))] ++ encodeIntMax64 cov
    else [byteOf covers.toNat]
  let encodedSender := if !senderIsSame then encodeIntMax64 sender else []
  let encodedReceiver := if !receiverIsSame then encodeIntMax64 receiver else []
  let encodedRange ← encodeRange3dRelative s.ss s.ordS s.p range privy.prevRange
  .ok ([firstByte] ++ [secondByte] ++ encodedCovers ++ encodedSender ++ encodedReceiver ++ encodeIntMax64 cnt ++
    encodedRange)

/-- `EncodeReconciliationSendEntry`, `/repo/pkg/wgps/encoding/reconciliation.go:259-346`. -/
def encodeReconciliationSendEntry (s : Schemes) (privy : Privy) (entry : Entry) (available staticTokenHandle : UInt64)
    (dynamicToken : Bytes) : Res Bytes := do
  let isPrev := staticTokenHandle == privy.prevStaticTokenHandle
  let prevFlag : UInt8 := if isPrev then 0x8 else 0x0
  let av := s.p.conv available.toNat
  let header : UInt8 := 0x50 ||| prevFlag ||| 0x4 ||| byteOf (compactWidthOr 0 (getWidthMax64Int av))
  let token := s.p.conv staticTokenHandle.toNat
  let encodedWidth : Bytes :=
    if isPrev then []
    else if staticTokenHandle < 63 then [byteOf staticTokenHandle.toNat]
    else [widthHeader (getWidthMax64Int token) 0x3f 0x7f 0xbf 0xff]
  let encodedToken := if !isPrev ∧ staticTokenHandle > 63 then encodeIntMax64 token else []
  let encodedEntry ← encodeEntryRelativeEntry s.ns s.ss s.pd s.eqNs s.ordS s.p entry privy.prevEntry
  .ok ([header] ++ encodedWidth ++ encodedToken ++ encodeIntMax64 av ++ s.dynamicToken.enc dynamicToken ++ encodedEntry)

/-- `EncodeReconciliationSendPayload`, `/repo/pkg/wgps/encoding/reconciliation.go:348-358`. -/
def encodeReconciliationSendPayload (s : Schemes) (amount : UInt64) (bytes : Bytes) : Bytes :=
  let a := s.p.conv amount.toNat
  [byteOf (compactWidthOr 0x50 (getWidthMax64Int a))] ++ encodeIntMax64 a ++ bytes

/-- `EncodeReconciliationTerminatePayload`, `/repo/pkg/wgps/encoding/reconciliation.go:360-362`. -/
def encodeReconciliationTerminatePayload : Bytes := [0x50]

/-- The idiom `width1 := bytes.NextAbsolute(w); x, _ = DecodeIntMax64(width1[:w]); Prune(w)`,
e.g. `/repo/pkg/wgps/decoding/reconciliation.go:52-56`. -/
def takeCompact (w : Nat) : Dec UInt64 := do
  let width1 ← nextAbsolute w
  let v ← compactAt width1 0 w
  prune w
  return v

/-- `DecodeReconciliationSendFingerprint`, `/repo/pkg/wgps/decoding/reconciliation.go:22-110`.
`DoesCover` is always true; an error of the decoder of the range is ignored (97). -/
def decodeReconciliationSendFingerprint (s : Schemes) (privy : Privy) (aoiRange : UInt64 → UInt64 → Range3d) : Dec Msg := do
  let width ← nextAbsolute 2
  let firstByte ← Dec.lift (byteAt width 0)
  let secondByte ← Dec.lift (byteAt width 1)
  let isNeutral := firstByte &&& 0x8 == 0x8
  let relative := firstByte &&& 0x4 == 0x4
  let isPrevSender := firstByte &&& 0x2 == 0x2
  let isPrevReceiver := firstByte &&& 0x1 == 0x1
  let ws := 2 ^ (secondByte >>> 6).toNat
  let wr := 2 ^ ((secondByte >>> 4) &&& 0x3).toNat
  let coversNotNone := secondByte &&& 0x8 == 0x8
  let wc := 2 ^ (secondByte &&& 0x3).toNat
  prune 2
  let covers ← (if coversNotNone then takeCompact wc else pure 0)
  let senderHandle ← (if !isPrevSender then takeCompact ws else pure privy.prevSenderHandle)
  let receiverHandle ← (if !isPrevReceiver then takeCompact wr else pure privy.prevReceiverHandle)
  let fingerprint ← (if isNeutral then pure s.neutral else s.fingerprint.decStream)
  let outer := if relative then privy.prevRange else aoiRange senderHandle receiverHandle
  let range ← (decodeStreamRange3dRelativeE s.ss s.p outer).ignoring zeroRange3d
  return ⟨.reconciliationSendFingerprint,
    .reconciliationSendFingerprint range fingerprint senderHandle receiverHandle covers true⟩

/-- `DecodeReconciliationAnnounceEntries`, `/repo/pkg/wgps/decoding/reconciliation.go:119-220`.
The width of a long `Covers` is taken from the last two bits of the second byte (line 151), and
one byte too few is waited for (line 153). An error of the decoder of the range is ignored (205). -/
def decodeReconciliationAnnounceEntries (s : Schemes) (privy : Privy) (aoiRange : UInt64 → UInt64 → Range3d) : Dec Msg := do
  let width ← nextAbsolute 2
  let firstByte ← Dec.lift (byteAt width 0)
  let secondByte ← Dec.lift (byteAt width 1)
  let wantResponse := firstByte &&& 0x8 == 0x8
  let relative := firstByte &&& 0x4 == 0x4
  let isPrevSender := firstByte &&& 0x2 == 0x2
  let isPrevReceiver := firstByte &&& 0x1 == 0x1
  let wCount := 2 ^ ((secondByte &&& 0xc) >>> 2).toNat
  let willSort := secondByte &&& 0x2 == 0x2
  let coversNotNone := secondByte &&& 0x1 == 0x1
  prune 2
  let covers ←
    (if coversNotNone then do
       let width1 ← nextAbsolute 1
       let coversLength ← Dec.lift (byteAt width1 0)
       if coversLength &&& 0xfc == 0xfc then do
         let wc := 2 ^ (secondByte &&& 0x3).toNat
         let width2 ← nextAbsolute wc
         let covers ← compactAt width2 1 wc
         prune (1 + wc)
         return covers
       else do
         prune 1
         return UInt64.ofNat coversLength.toNat
     else pure 0)
  let senderHandle ← (if !isPrevSender then takeCompact (2 ^ (secondByte >>> 6).toNat) else pure privy.prevSenderHandle)
  let receiverHandle ← (if !isPrevReceiver then takeCompact (2 ^ ((secondByte >>> 4) &&& 0x3).toNat)
    else pure privy.prevReceiverHandle)
  let count ← takeCompact wCount
  let outer := if relative then privy.prevRange else aoiRange senderHandle receiverHandle
  let range ← (decodeStreamRange3dRelativeE s.ss s.p outer).ignoring zeroRange3d
  return ⟨.reconciliationAnnounceEntries,
    .reconciliationAnnounceEntries range count wantResponse willSort senderHandle receiverHandle covers true⟩

/-- `DecodeReconciliationSendEntry`, `/repo/pkg/wgps/decoding/reconciliation.go:231-324`. The
entry that is not relative to the previous one is decoded and dropped (line 300), also when its decoder returns an
error; the decoder of the token runs beside that of the entry, here before it. -/
def decodeReconciliationSendEntry (s : Schemes) (privy : Privy) : Dec Msg := do
  let width ← nextAbsolute 1
  let header ← Dec.lift (byteAt width 0)
  let isPrev := header &&& 0x8 == 0x8
  let relative := header &&& 0x4 == 0x4
  let wAvailable := 2 ^ (header &&& 0x3).toNat
  let staticTokenHandle ←
    (if isPrev then do
       prune 1
       return privy.prevStaticTokenHandle
     else do
       let width1 ← nextAbsolute 2
       let size ← Dec.lift (byteAt width1 1)
       let w := if size &&& 0xff == 0xff then 8 else if size &&& 0xbf == 0xbf then 4
         else if size &&& 0x7f == 0x7f then 2 else 1
       let width2 ← nextAbsolute (2 + w)
       let handle ← (if size < 63 then pure (UInt64.ofNat size.toNat) else compactAt width2 2 w)
       prune (2 + w)
       return handle)
  let available ← takeCompact wAvailable
  let dynamicToken ← s.dynamicToken.decStream
  let entry ←
    (if relative then decodeStreamEntryRelativeEntry s.ns s.ss s.pd s.p privy.prevEntry
     else do
       let _ ← (decodeStreamEntryRelativeRange3dE s.ss s.pd s.p privy.announcedRange privy.announcedNamespace).ignoring zeroEntry
       return zeroEntry)
  return ⟨.reconciliationSendEntry, .reconciliationSendEntry entry available staticTokenHandle dynamicToken⟩

/-- `DecodeReconciliationSendPayload`, `/repo/pkg/wgps/decoding/reconciliation.go:326-350`. From
2^63 on `int(Amount)` is negative and the slice expression panics. -/
def decodeReconciliationSendPayload : Dec Msg := do
  let width ← nextAbsolute 1
  let b ← Dec.lift (byteAt width 0)
  let w := compactWidthFromEndOfByte b
  let width1 ← nextAbsolute (1 + w)
  let amount ← compactAt width1 1 w
  prune (1 + w)
  if amount.toNat ≥ 2 ^ 63 then Dec.lift .crash
  else do
  let width2 ← nextAbsolute amount.toNat
  let bytes ← sliceArray width2 0 amount.toNat
  prune amount.toNat
  return ⟨.reconciliationSendPayload, .reconciliationSendPayload amount bytes⟩

end Willow
