import Verif.Model.Messages
import Verif.Lemmas.Relative

/-! Independent specification of what encoding and decoding a message should do. -/

namespace Willow.Spec

open Willow

/-- A decoder returned `m`, leaving the bytes `rest` in the stream. -/
def Gives {α : Type} (m : α) (rest : Bytes) (r : Res (α × GB)) : Prop := ∃ g', r = .ok (m, g') ∧ g'.content = rest

/-- On every stream whose remaining bytes start with `enc`, however they are cut into chunks and
whenever the chunks arrive, the decoder returns `m` and consumes exactly `enc`. -/
def RoundTrips {α : Type} (dec : Dec α) (enc : Bytes) (m : α) : Prop :=
  ∀ (g : GB) (rest : Bytes), g.content = enc ++ rest → Gives m rest (dec g)

/-- The same for a stream of which everything has arrived already. -/
def RoundTripsArrived {α : Type} (dec : Dec α) (enc : Bytes) (m : α) : Prop :=
  ∀ (g : GB) (rest : Bytes), g.rest = [] → g.content = enc ++ rest → Gives m rest (dec g)

/-- What the encodings of ids, digests and dynamic tokens, the equality and the order of ids and
the limits of paths are required to be: lawful codecs on the valid values, equality, the
lexicographic order, and limits below 2^32. -/
structure LawfulSchemes (s : Schemes) (vn vs vp vt : Bytes → Prop) : Prop where
  ns : s.ns.Lawful vn
  ss : s.ss.Lawful vs
  pd : s.pd.Lawful vp
  dynamicToken : s.dynamicToken.Lawful vt
  eqNs : ∀ a b, s.eqNs a b = true ↔ a = b
  ordS : Decides BytesLt s.ordS

/-- An entry that the schemes can encode. -/
structure ValidEntry (s : Schemes) (vn vs vp : Bytes → Prop) (e : Entry) : Prop where
  ns : vn e.namespaceId
  ss : vs e.subspaceId
  path : ShortPath s.p e.path
  digest : vp e.payloadDigest

/-- The condition under which the stream decoder of paths works (C24): no component is longer
than its length field is wide, or everything has arrived. -/
def PathComes (s : Schemes) (g : GB) (e : Entry) : Prop :=
  (∀ c ∈ e.path, c.length ≤ getWidthMax32Int s.p.cl) ∨ g.rest = []

/-- The kind of each type of message. -/
def kindOf : Body → MsgKind
  | .commitmentReveal .. => .commitmentReveal
  | .paiBindFragment .. => .paiBindFragment
  | .paiReplyFragment .. => .paiReplyFragment
  | .paiRequestSubspaceCapability .. => .paiRequestSubspaceCapability
  | .paiReplySubspaceCapability .. => .paiReplySubspaceCapability
  | .setupBindReadCapability .. => .setupBindReadCapability
  | .setupBindAreaOfInterest .. => .setupBindAreaOfInterest
  | .setupBindStaticToken .. => .setupBindStaticToken
  | .reconciliationSendFingerprint .. => .reconciliationSendFingerprint
  | .reconciliationAnnounceEntries .. => .reconciliationAnnounceEntries
  | .reconciliationSendEntry .. => .reconciliationSendEntry
  | .reconciliationSendPayload .. => .reconciliationSendPayload
  | .reconciliationTerminatePayload => .reconciliationTerminatePayload
  | .dataSendEntry .. => .dataSendEntry
  | .dataSendPayload .. => .dataSendPayload
  | .dataSetMetadata .. => .dataSetMetadata
  | .dataBindPayloadRequest .. => .dataBindPayloadRequest
  | .dataReplyPayload .. => .dataReplyPayload
  | .controlIssueGuarantee .. => .controlIssueGuarantee
  | .controlAbsolve .. => .controlAbsolve
  | .controlPlead .. => .controlPlead
  | .controlAnnounceDropping .. => .controlAnnounceDropping
  | .controlApologise .. => .controlApologise
  | .controlFree .. => .controlFree

/-- A well-formed message: the kind is that of its type. -/
def message (b : Body) : Msg := ⟨kindOf b, b⟩

end Willow.Spec
