import Verif.Model.Transport

/-! What the transport and the receiving goroutines should do. -/

namespace Willow.Spec

open Willow

/-- A message with its length before it: eight bytes, the most significant first. -/
def frame (m : Bytes) : Bytes := ([7, 6, 5, 4, 3, 2, 1, 0].map fun i => UInt8.ofNat (m.length / 256 ^ i)) ++ m

/-- Messages with their lengths, one after the other. -/
def frames (ms : List Bytes) : Bytes := (ms.map frame).flatten

/-- The bytes written to the stream of a role and a channel. -/
def writtenTo (t : Transport) (role : SyncRole) (channel : Channel) : Option Bytes :=
  match role with
  | .alfie => (t.initiated channel).map (·.written)
  | .betty => (t.accepted channel).map (·.written)

/-- Whether bytes can be written to the stream of a role and a channel. -/
def writable (t : Transport) (role : SyncRole) (channel : Channel) : Bool :=
  match role with
  | .alfie => !t.closed && (t.initiated channel).any fun s => !s.closed
  | .betty => !t.closed && (t.accepted channel).any fun s => !s.closed

/-- Sends, one after the other. -/
def sendAll (t : Transport) : List (Bytes × Channel × SyncRole) → Res Transport
  | [] => .ok t
  | (data, channel, role) :: rest => do
    let t ← t.send data channel role
    sendAll t rest

/-- What was sent on the stream of a role and a channel. -/
def sentOn (role : SyncRole) (channel : Channel) (sends : List (Bytes × Channel × SyncRole)) : Bytes :=
  ((sends.filter fun x => x.2.1 = channel ∧ x.2.2 = role).map (·.1)).flatten

/-- The messages given to a listener. -/
def given (s : Receiving) : Listener → List Bytes
  | .data => s.data.out
  | .reconciliation => s.reconciliation.out

/-- The channel that a listener is for. -/
def purpose : Listener → Channel
  | .data => .data
  | .reconciliation => .reconciliation

end Willow.Spec
