import Verif.Model.Basic

/-! What a tracker of reconciliation messages should know after a history of messages. -/

namespace Willow.Spec

/-- What a tracker is told of, with the fields that it looks at. -/
inductive TrackerEvent where
  | fingerprint (range : Range3d) (sender receiver : UInt64)
  | announcement (range : Range3d) (sender receiver count : UInt64)
  | entry (e : Entry) (token : UInt64)
  | payloadEnd
deriving DecidableEq

namespace TrackerEvent

/-- The range and the handles in a message. -/
def ranged : TrackerEvent → Option (Range3d × UInt64 × UInt64)
  | fingerprint r s c => some (r, s, c)
  | announcement r s c _ => some (r, s, c)
  | _ => none

/-- The range, the receiver's handle and the number of entries of an announcement. -/
def announced : TrackerEvent → Option (Range3d × UInt64 × UInt64)
  | announcement r _ c n => some (r, c, n)
  | _ => none

/-- The entry and the token in a message. -/
def sent : TrackerEvent → Option (Entry × UInt64)
  | entry e t => some (e, t)
  | _ => none

/-- Whether this starts or ends a payload. -/
def payload : TrackerEvent → Option Bool
  | entry .. => some true
  | payloadEnd => some false
  | _ => none

end TrackerEvent

/-- The last message with some feature. -/
def latestOf {α : Type} (f : TrackerEvent → Option α) (history : List TrackerEvent) : Option α :=
  (history.filterMap f).getLast?

/-- The number of entries after the last announcement. -/
def entriesSince (history : List TrackerEvent) : Nat :=
  ((history.reverse.takeWhile fun e => e.announced.isNone).filter fun e => e.sent.isSome).length

/-- The number of entries that the last announcement announced. -/
def entriesAnnounced (history : List TrackerEvent) : Nat :=
  match latestOf TrackerEvent.announced history with
  | some (_, _, n) => n.toNat
  | none => 0

end Willow.Spec
