import Verif.Model.Handles
import Verif.Model.KdTree

/-!
# Announcing entries

`/repo/pkg/wgps/reconciliation/announcer.go`, which is commented out as a whole and is read as if
it were not.
-/

namespace Willow

/-- `AuthorisationTokenScheme` as far as the announcer uses it: `DecomposeAuthToken` (the static
and the dynamic part) and the encoding of static tokens. -/
structure TokenScheme where
  decompose : Bytes → Bytes × Bytes
  encode : Bytes → Bytes

/-- An element of `Entries`, `/repo/pkg/wgps/reconciliation/announcer.go:33-37`. -/
structure AnnouncedEntry where
  entry : Entry
  available : UInt64
  staticTokenHandle : UInt64
  dynamicToken : Bytes
deriving Repr, DecidableEq

/-- The argument of `QueueAnnounce`, `/repo/pkg/wgps/reconciliation/announcer.go:93-101`. Line 112
calls `Get` of the store without arguments, though it has two; the comment above it says that a
query should stand there. It is read as returning the entries of the store, `results`, which do
not depend on the range. -/
structure AnnounceRequest where
  senderHandle : UInt64
  receiverHandle : UInt64
  results : List KdKey
  range : Range3d
  wantResponse : Bool
  covers : UInt64
deriving Repr, DecidableEq

/-- `AnnouncementPack`, `/repo/pkg/wgps/reconciliation/announcer.go:20-38`. -/
structure AnnouncementPack where
  staticTokenBinds : List Bytes
  range : Range3d
  count : Nat
  wantResponse : Bool
  senderHandle : UInt64
  receiverHandle : UInt64
  covers : UInt64
  entries : List AnnouncedEntry
deriving Repr, DecidableEq

/-- `Announcer`, `/repo/pkg/wgps/reconciliation/announcer.go:40-46`, without the queue. Its handle store is a copy
(lines 43 and 55) of the one of the session: the map is shared, the least unassigned handle is not; `others` is the
latter in the session's. -/
structure Announcer where
  store : HandleStore Bytes
  handles : GoMap Bytes UInt64
  others : UInt64
deriving Repr, DecidableEq

/-- `NewAnnouncer`, `/repo/pkg/wgps/reconciliation/announcer.go:48-60`, with a new handle store. -/
def Announcer.new : Announcer := ⟨.empty, [], 0⟩

/-- `GetStaticTokenHandle`, `/repo/pkg/wgps/reconciliation/announcer.go:62-90`: the handle and
whether it existed already. With the error at line 77 the zero value is returned, and the caller
drops the error (line 130). -/
def Announcer.tokenHandle (scheme : TokenScheme) (a : Announcer) (staticToken : Bytes) : (UInt64 × Bool) × Announcer :=
  let encoded := scheme.encode staticToken
  match a.handles.get encoded with
  | some existing => if !a.store.canUse existing then ((0, false), a) else ((existing, true), a)
  | none =>
    let (handle, store) := a.store.bind staticToken
    ((handle, false), ⟨store, a.handles.set encoded handle, a.others⟩)

/-- The loop of `QueueAnnounce`, `/repo/pkg/wgps/reconciliation/announcer.go:114-151`: the tokens
to bind and the entries. The fields of an entry that are not set at lines 120-124 are zero. -/
def announceLoop (scheme : TokenScheme) : List KdKey → Announcer → (List Bytes × List AnnouncedEntry) × Announcer
  | [], a => (([], []), a)
  | result :: rest, a =>
    let entry : Entry := ⟨[], result.pos.subspace, result.pos.path, [], 0, result.pos.time⟩
    let (staticToken, dynamicToken) := scheme.decompose result.pos.subspace
    let ((handle, existed), a) := a.tokenHandle scheme staticToken
    let ((binds, entries), a) := announceLoop scheme rest a
    ((if existed then binds else staticToken :: binds, ⟨entry, 1, handle, dynamicToken⟩ :: entries), a)

/-- `QueueAnnounce`, `/repo/pkg/wgps/reconciliation/announcer.go:92-172`: the pack that is put in
the queue. -/
def Announcer.queueAnnounce (scheme : TokenScheme) (a : Announcer) (r : AnnounceRequest) : AnnouncementPack × Announcer :=
  let ((binds, entries), a) := announceLoop scheme r.results a
  (⟨binds, r.range, entries.length, r.wantResponse, r.senderHandle, r.receiverHandle, r.covers, entries⟩, a)

/-- A call of the rest of the session on its copy of the handle store. -/
def Announcer.elsewhere (a : Announcer) (op : HandleOp Bytes) : Announcer :=
  let session := HandleStore.step ⟨a.others, a.store.map⟩ op
  { a with store := ⟨a.store.least, session.map⟩, others := session.least }

/-- What changes an announcer and its handle store: an announcement, or a call on the handle store of the session. -/
inductive AnnouncerOp where
  | announce (r : AnnounceRequest)
  | handles (op : HandleOp Bytes)

/-- Calls one after the other: the packs in the order in which they leave the queue
(`announcementPacks`, `/repo/pkg/wgps/reconciliation/announcer.go:174-183`). -/
def Announcer.run (scheme : TokenScheme) : List AnnouncerOp → Announcer → List AnnouncementPack × Announcer
  | [], a => ([], a)
  | .announce r :: rest, a =>
    let (pack, a) := a.queueAnnounce scheme r
    let (packs, a) := Announcer.run scheme rest a
    (pack :: packs, a)
  | .handles op :: rest, a => Announcer.run scheme rest (a.elsewhere op)

end Willow
