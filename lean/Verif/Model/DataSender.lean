import Verif.Model.Wgps
import Verif.Model.Store
import Verif.Model.Handles

/-! # Queueing in the data sender

`/repo/pkg/wgps/data/data_sender.go`. A payload that has been queued is read from its file only
when the messages are made; `dataMessages` in `Verif/Model/Wgps.lean` makes them from the contents
read. -/

namespace Willow

/-- `PayloadRequest`, `/repo/pkg/wgps/data/data_sender.go:34-37`. -/
structure PayloadRequest where
  offset : UInt64
  entry : Entry
deriving Repr, DecidableEq

/-- What a data sender consults: the payload files of the stores by namespace (`GetStore`), and the
payload requests of the peer, `/repo/pkg/wgps/data/data_sender.go:39-43`. -/
structure SenderWorld where
  env : Bytes → StoreEnv
  files : Bytes → KV
  requests : HandleStore PayloadRequest

/-- An element of `InternalQueue`, `/repo/pkg/wgps/data/data_sender.go:20-32`. The payload is a
reference to the file for the digest of the entry in the store of its namespace. -/
inductive Queued where
  | nil
  | entry (entry : Entry) (offset staticTokenHandle : UInt64) (dynamicToken : Bytes)
  | request (handle offset : UInt64) (entry : Entry)
deriving Repr, DecidableEq

/-- `NewDataSender`, `/repo/pkg/wgps/data/data_sender.go:50-55`: the queue starts with one nil. -/
def newDataSender : List Queued := [.nil]

/-- `PayloadDriver.Get` of the store of the namespace of an entry: whether its file exists,
`/repo/pkg/wgps/data/data_sender.go:58-59` and 81-82. -/
def SenderWorld.payload (w : SenderWorld) (e : Entry) : Option Bytes :=
  payloadGet (w.env e.namespaceId) (w.files e.namespaceId) e.payloadDigest

/-- `QueueEntry`, `/repo/pkg/wgps/data/data_sender.go:57-74`; `none` is the returned error. -/
def queueEntry (w : SenderWorld) (q : List Queued) (e : Entry) (staticTokenHandle : UInt64) (dynamicToken : Bytes) (offset : UInt64) :
    Option (List Queued) :=
  match w.payload e with
  | none => none
  | some _ => some (q ++ [.entry e offset staticTokenHandle dynamicToken])

/-- `QueuePayloadRequest`, `/repo/pkg/wgps/data/data_sender.go:76-93`; `none` is the returned
error. -/
def queuePayloadRequest (w : SenderWorld) (q : List Queued) (handle : UInt64) : Option (List Queued) :=
  match w.requests.get handle with
  | none => none
  | some r =>
    match w.payload r.entry with
    | none => none
    | some _ => some (q ++ [.request handle r.offset r.entry])

/-- A queued element with the contents that its payload has now. Opening a file that is gone
(`/repo/pkg/data_model/payload_kv_driver/filesystem.go:38-41`) is an error just as reading an empty
one (line 46-48). -/
def SenderWorld.read (w : SenderWorld) : Queued → SendItem
  | .nil => .nil
  | .entry e offset staticTokenHandle dynamicToken => .entry e offset staticTokenHandle dynamicToken ((w.payload e).getD [])
  | .request handle offset e => .request handle offset ((w.payload e).getD [])

/-- A call on a data sender. -/
inductive SenderCall where
  | entry (entry : Entry) (staticTokenHandle : UInt64) (dynamicToken : Bytes) (offset : UInt64)
  | request (handle : UInt64)
  | messages
deriving Repr, DecidableEq

/-- Calls one after the other, each with the world as it is then: what the calls of `Messages`
(`/repo/pkg/wgps/data/data_sender.go:95-158`, which does not change the queue) return, and the
queue. After an error the queue is as before. -/
def senderRun (transform : Bytes → Bytes) : List (SenderWorld × SenderCall) → List Queued → List (List DataMsg × Bool) × List Queued
  | [], q => ([], q)
  | (w, .entry e handle token offset) :: rest, q => senderRun transform rest ((queueEntry w q e handle token offset).getD q)
  | (w, .request handle) :: rest, q => senderRun transform rest ((queuePayloadRequest w q handle).getD q)
  | (w, .messages) :: rest, q =>
    let (out, q') := senderRun transform rest q
    (dataMessages transform (q.map w.read) :: out, q')

end Willow
