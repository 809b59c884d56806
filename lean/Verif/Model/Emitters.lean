import Verif.Model.Wgps

/-! Goroutines that send the elements of a queue to a channel:
`Intersections` of the intersection finder (`/repo/pkg/wgps/reconciliation/aoi_intersection_finder.go:143-169`),
`FragmentBinds`, `FragmentReplies`, `Intersections`, `SubspaceCapRequests` and `SubspaceCaReplies`
(`/repo/pkg/wgps/pai/pai_finder.go:450-550`), `FetchOutgoingBytes`
(`/repo/pkg/wgps/guaranteed_queue.go:53-69`), and `announcements`
(`/repo/pkg/wgps/reconciliation/reconciler.go:212-231`).

Contract: the channel is unbuffered, so a send and its receive are one step. -/

namespace Willow

/-- `HandleToNamespaceId`, `/repo/pkg/wgps/reconciliation/aoi_intersection_finder.go:131-140`; the zero
value when there is none. -/
def AoiFinder.namespaceOf (f : AoiFinder) (handle : UInt64) (ours : Bool) : Bytes :=
  ((if ours then f.ours else f.theirs).get handle).getD []

/-- A queue and a goroutine that sends it: the queue, the elements over which the goroutine ranges
(`range` evaluates the slice once, when the goroutine gets to run; `none` before), how many of them
it has sent, what the reader has received, whether the channel is closed, and whether the context is
done. -/
structure Emitter (α : Type) where
  queue : List α
  ranged : Option (List α)
  sent : Nat
  received : List α
  closed : Bool
  cancelled : Bool
deriving Repr, DecidableEq

/-- What may happen. `give x`: an element is queued. `start`: the goroutine begins to range. `send`:
it sends and the reader receives. `cancel`: the context is done. `stop`: the goroutine notices that.
`close`: it has sent everything and closes the channel. -/
inductive EmitAct (α : Type) where
  | give (x : α)
  | start
  | send
  | cancel
  | stop
  | close

/-- A step, if it is possible. The loops at
`/repo/pkg/wgps/reconciliation/aoi_intersection_finder.go:155-165`,
`/repo/pkg/wgps/pai/pai_finder.go:455-469` (and alike; elements read by index are those ranged over,
since elements are only appended), `/repo/pkg/wgps/guaranteed_queue.go:56-66`. The former two have no
context; for them `cancel` does not occur. -/
def Emitter.step {α : Type} (e : Emitter α) : EmitAct α → Option (Emitter α)
  | .give x => some { e with queue := e.queue ++ [x] }
  | .start => if e.ranged.isSome then none else some { e with ranged := some e.queue }
  | .send =>
    match e.ranged with
    | none => none
    | some l =>
      if e.closed then none
      else match l[e.sent]? with
        | none => none
        | some x => some { e with sent := e.sent + 1, received := e.received ++ [x] }
  | .cancel => some { e with cancelled := true }
  | .stop =>
    match e.ranged with
    | none => none
    | some l => if e.closed = false ∧ e.cancelled ∧ e.sent < l.length then some { e with closed := true } else none
  | .close =>
    match e.ranged with
    | none => none
    | some l => if e.closed = false ∧ e.sent ≥ l.length then some { e with closed := true } else none

/-- A call with a queue: nothing has happened yet. -/
def Emitter.init {α : Type} (queue : List α) : Emitter α := ⟨queue, none, 0, [], false, false⟩

/-- Steps one after the other. -/
def Emitter.run {α : Type} : List (EmitAct α) → Emitter α → Option (Emitter α)
  | [], e => some e
  | a :: rest, e =>
    match e.step a with
    | none => none
    | some e => Emitter.run rest e

/-- `announcements`: the elements put in `AnnounceQueue` and not yet taken, whether it is closed, the
element in hand, what has been received, whether `out` is closed. -/
structure Forwarder (α : Type) where
  incoming : List α
  inClosed : Bool
  hand : Option α
  received : List α
  closed : Bool
deriving Repr, DecidableEq

/-- What may happen around `announcements`. -/
inductive ForwardAct (α : Type) where
  | put (x : α)
  | closeIn
  | take
  | send
  | close

/-- A step, if it is possible, `/repo/pkg/wgps/reconciliation/reconciler.go:224-229`. Putting into a
closed channel panics and is left out; the channel holds eight elements (lines 63-68). -/
def Forwarder.step {α : Type} (f : Forwarder α) : ForwardAct α → Option (Forwarder α)
  | .put x => if f.inClosed ∨ f.incoming.length ≥ 8 then none else some { f with incoming := f.incoming ++ [x] }
  | .closeIn => if f.inClosed then none else some { f with inClosed := true }
  | .take =>
    match f.hand, f.incoming with
    | none, x :: rest => some { f with hand := some x, incoming := rest }
    | _, _ => none
  | .send =>
    match f.hand with
    | some x => some { f with hand := none, received := f.received ++ [x] }
    | none => none
  | .close => if f.hand = none ∧ f.incoming = [] ∧ f.inClosed ∧ f.closed = false then some { f with closed := true } else none

/-- A new forwarder. -/
def Forwarder.init {α : Type} : Forwarder α := ⟨[], false, none, [], false⟩

/-- Steps one after the other. -/
def Forwarder.run {α : Type} : List (ForwardAct α) → Forwarder α → Option (Forwarder α)
  | [], f => some f
  | a :: rest, f =>
    match f.step a with
    | none => none
    | some f => Forwarder.run rest f

end Willow
