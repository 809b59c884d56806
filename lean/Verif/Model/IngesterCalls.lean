import Verif.Model.Wgps

/-! Calls on the payload ingester, with the entry that `Terminate` gives back. -/

namespace Willow

/-- `Target`, `Push` and `Terminate` with all arguments,
`/repo/pkg/wgps/data/payload_ingester.go:129-157`. -/
inductive IngesterCall where
  | target (entry : Entry) (requestIfImmediatelyTerminated : Bool)
  | push (bytes : Bytes) (isEnd : Bool)
  | terminate
deriving Repr, DecidableEq

/-- The side of the callers: the events that they have put into the channel `Events`, and
`EntryToRequestPayloadFor` (`/repo/pkg/wgps/data/payload_ingester.go:42-45`). The
channel (capacity 32) is in `IngesterRun`. -/
structure IngesterFront where
  events : List IngestEvent
  toRequest : Option Entry
deriving Repr, DecidableEq

/-- The fields after `NewPayloadIngester`, `/repo/pkg/wgps/data/payload_ingester.go:57-62`. -/
def IngesterFront.new : IngesterFront := ⟨[], none⟩

/-- One call and what it gives back (`none` for `Target` and `Push`, which return nothing),
`/repo/pkg/wgps/data/payload_ingester.go:129-157`. -/
def IngesterFront.call (f : IngesterFront) : IngesterCall → IngesterFront × Option (Option Entry)
  | .target e request =>
    (⟨f.events ++ (IngesterOp.target e).events, if request then some e else f.toRequest⟩, none)
  | .push b isEnd => (⟨f.events ++ (IngesterOp.push b isEnd).events, none⟩, none)
  | .terminate => (⟨f.events ++ IngesterOp.terminate.events, f.toRequest⟩, some f.toRequest)

/-- Calls one after another; only the state. -/
def IngesterFront.run (f : IngesterFront) (calls : List IngesterCall) : IngesterFront :=
  calls.foldl (fun f c => (f.call c).1) f

/-- The ingester at work: events that the callers still have to put into the channel, those in the channel, those that the
goroutine (`/repo/pkg/wgps/data/payload_ingester.go:64-124`) has received, and its state. -/
structure IngesterRun where
  pending : List IngestEvent
  channel : List IngestEvent
  handled : List IngestEvent
  state : Ingester
deriving Repr, DecidableEq

/-- One step: a caller puts an event into the channel, which has room for 32 (line 59), or the goroutine receives one and handles
it. Calls come one after another, as those of the messenger do. -/
inductive IngesterRun.Step (process : Bytes → UInt64 → Bytes) : IngesterRun → IngesterRun → Prop where
  | send (e : IngestEvent) (pending channel handled : List IngestEvent) (s : Ingester) (room : channel.length < 32) :
      Step process ⟨e :: pending, channel, handled, s⟩ ⟨pending, channel ++ [e], handled, s⟩
  | receive (e : IngestEvent) (pending channel handled : List IngestEvent) (s s' : Ingester) (h : s.handle process e = .ok s') :
      Step process ⟨pending, e :: channel, handled, s⟩ ⟨pending, channel, handled ++ [e], s'⟩

/-- Any number of steps, with their number. -/
inductive IngesterRun.Steps (process : Bytes → UInt64 → Bytes) : Nat → IngesterRun → IngesterRun → Prop where
  | done (r : IngesterRun) : Steps process 0 r r
  | step {n : Nat} {r r' r'' : IngesterRun} (first : IngesterRun.Steps process n r r') (last : IngesterRun.Step process r' r'') :
      Steps process (n + 1) r r''

end Willow
