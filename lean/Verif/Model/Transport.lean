import Verif.Model.Messages
import Verif.Model.Wgps

/-!
# The transport and the goroutines that receive from it

`/repo/pkg/wgps/transport/quic.go` and the parts of `NewWgpsMessenger` that are not commented
out, `/repo/pkg/wgps/wgps_messenger.go:783-843`. QUIC itself is a contract: a stream carries bytes
in order, and a read returns some of those that have arrived.
-/

namespace Willow

/-- `SyncRole`, `/repo/pkg/wgps/wgpstypes/types.go:12-28`. -/
inductive SyncRole where
  | alfie
  | betty
deriving Repr, DecidableEq

/-- The number of a channel, `/repo/pkg/wgps/wgpstypes/types.go:70-88`. -/
def Channel.index : Channel → UInt8
  | .control => 0
  | .reconciliation => 1
  | .data => 2
  | .intersection => 3
  | .capability => 4
  | .areaOfInterest => 5
  | .payloadRequest => 6
  | .staticToken => 7

/-- Our end of a `quic.Stream`: the bytes written to it, and whether `Close` was called, after
which nothing can be written. -/
structure StreamEnd where
  written : Bytes
  closed : Bool
deriving Repr, DecidableEq

/-- `QuicTransport`, `/repo/pkg/wgps/transport/quic.go:23-28`. The slices have eight elements, one
for each channel, nil until the stream is opened. -/
structure Transport where
  accepted : Channel → Option StreamEnd
  initiated : Channel → Option StreamEnd
  closed : Bool

/-- `NewQuicTransport`, `/repo/pkg/wgps/transport/quic.go:30-37`. -/
def Transport.new : Transport := ⟨fun _ => none, fun _ => none, false⟩

/-- The goroutine of `NewQuicTransport`, `/repo/pkg/wgps/transport/quic.go:39-61`, once a peer has
opened all streams. -/
def Transport.accept (t : Transport) : Transport := { t with accepted := fun _ => some ⟨[], false⟩ }

/-- The bytes written first to the stream with number `i`,
`/repo/pkg/wgps/transport/quic.go:86-88`. `string(i)` of an integer is the text with this one
character. -/
def initBytes (i : UInt8) : Bytes := bigIntToBytes (UInt64.ofNat (utf8Len i)) ++ [i]

/-- `Initiate`, `/repo/pkg/wgps/transport/quic.go:67-95`, when nothing fails. -/
def Transport.initiate (t : Transport) : Transport := { t with initiated := fun ch => some ⟨initBytes ch.index, false⟩ }

/-- `Write` of a stream: a nil stream panics, a closed one returns an error. -/
def streamWrite (s : Option StreamEnd) (data : Bytes) : Res StreamEnd :=
  match s with
  | none => .crash
  | some s => if s.closed then .err else .ok { s with written := s.written ++ data }

/-- `Send`, `/repo/pkg/wgps/transport/quic.go:97-115`. -/
def Transport.send (t : Transport) (data : Bytes) (channel : Channel) (role : SyncRole) : Res Transport :=
  if t.closed then .err
  else
    match role with
    | .alfie => do
      let s ← streamWrite (t.initiated channel) data
      .ok { t with initiated := fun ch => if ch = channel then some s else t.initiated ch }
    | .betty => do
      let s ← streamWrite (t.accepted channel) data
      .ok { t with accepted := fun ch => if ch = channel then some s else t.accepted ch }

/-- All channels, in the order of their numbers. -/
def Channel.all : List Channel :=
  [.control, .reconciliation, .data, .intersection, .capability, .areaOfInterest, .payloadRequest, .staticToken]

/-- The loops of `Close` over the streams, `/repo/pkg/wgps/transport/quic.go:120-129`: calling
`Close` on a nil stream panics. Simplification: `Close` of a stream does not fail. -/
def closeLoop : List Channel → (Channel → Option StreamEnd) → Res (Channel → Option StreamEnd)
  | [], streams => .ok streams
  | channel :: rest, streams =>
    match streams channel with
    | none => .crash
    | some s => closeLoop rest fun ch => if ch = channel then some { s with closed := true } else streams ch

/-- `Close`, `/repo/pkg/wgps/transport/quic.go:117-134`. -/
def Transport.close (t : Transport) : Res Transport := do
  let accepted ← closeLoop Channel.all t.accepted
  let initiated ← closeLoop Channel.all t.initiated
  .ok { accepted := accepted, initiated := initiated, closed := true }

/-! ### Receiving -/

/-- A goroutine of `Recv`, `/repo/pkg/wgps/transport/quic.go:140-194`: the bytes that the current
`io.ReadFull` has read so far, the length of the body it is reading (or none while it reads a
length) and what it has sent to `writeTo`. -/
structure RecvState where
  got : Bytes
  body : Option Nat
  out : List Bytes
deriving Repr, DecidableEq

/-- A goroutine that has just been started. -/
def RecvState.new : RecvState := ⟨[], none, []⟩

/-- The end of an `io.ReadFull` of the loop of `Recv`, `/repo/pkg/wgps/transport/quic.go:147-164`
and 172-189: after a length, a slice of that length is made (which panics if it is more than the
machine can have, `maxAlloc`) and filled, at once if it is empty; after a body, it is sent on. -/
def RecvState.full (maxAlloc : Nat) (r : RecvState) (bytes : Bytes) : Res RecvState :=
  match r.body with
  | none => do
    let n ← beUint64 bytes
    if maxAlloc < n then .crash
    else if n = 0 then .ok { r with got := [], body := none, out := r.out ++ [[]] }
    else .ok { r with got := [], body := some n }
  | some _ => .ok { got := [], body := none, out := r.out ++ [bytes] }

/-- One `Read` of an `io.ReadFull` of the loop of `Recv` from a stream on which the given chunks
have arrived (contract): it returns the bytes of the first chunk, but no more than were asked for;
it waits if there are none. -/
def RecvState.read (maxAlloc : Nat) (r : RecvState) (chunks : List Bytes) : Res (RecvState × List Bytes) :=
  match chunks with
  | [] => .block
  | c :: rest =>
    let want := r.body.getD 8 - r.got.length
    let got := r.got ++ c.take want
    let chunks := if want < c.length then c.drop want :: rest else rest
    if got.length < r.body.getD 8 then .ok ({ r with got := got }, chunks)
    else do
      let r ← r.full maxAlloc got
      .ok (r, chunks)

/-- A goroutine of `Recv` alone on a stream, after this many reads or when it waits. -/
def recvReads (maxAlloc : Nat) : Nat → RecvState → List Bytes → Res (RecvState × List Bytes)
  | 0, r, chunks => .ok (r, chunks)
  | _ + 1, r, [] => .ok (r, [])
  | n + 1, r, c :: rest => do
    let (r, chunks) ← r.read maxAlloc (c :: rest)
    recvReads maxAlloc n r chunks

/-- The goroutines that handle what is received, for one role:
`/repo/pkg/wgps/wgps_messenger.go:813-837`. -/
inductive Listener where
  | data
  | reconciliation
deriving Repr, DecidableEq

/-- The stream that the goroutine of `Recv` for a listener reads from,
`/repo/pkg/wgps/wgps_messenger.go:839-843`: the same one in all four calls. -/
def Listener.stream : Listener → Channel
  | .data => .data
  | .reconciliation => .data

/-- What has arrived on the streams of one role, and the goroutines. -/
structure Receiving where
  arrived : Channel → List Bytes
  data : RecvState
  reconciliation : RecvState

/-- The goroutine of a listener reads once; if nothing has arrived for it, it waits. -/
def Receiving.step (maxAlloc : Nat) (s : Receiving) (l : Listener) : Res Receiving :=
  let r := match l with
    | .data => s.data
    | .reconciliation => s.reconciliation
  match s.arrived l.stream with
  | [] => .ok s
  | chunks => do
    let (r, chunks) ← r.read maxAlloc chunks
    let arrived := fun ch => if ch = l.stream then chunks else s.arrived ch
    match l with
    | .data => .ok { s with arrived := arrived, data := r }
    | .reconciliation => .ok { s with arrived := arrived, reconciliation := r }

/-- The goroutines read in the given order. -/
def Receiving.run (maxAlloc : Nat) (s : Receiving) : List Listener → Res Receiving
  | [] => .ok s
  | l :: rest => do
    let s ← s.step maxAlloc l
    s.run maxAlloc rest

/-! ### AsyncReceive -/

/-- How a call of `AsyncReceive` goes on: it waits for a value, it has returned, or it goes round
with zero values because the channel has been closed. -/
inductive AsyncEnd where
  | waiting
  | returned
  | spinning
deriving Repr, DecidableEq

/-- `AsyncReceive`, `/repo/pkg/wgps/syncutils/utils.go:17-32`: the values that are sent to the
channel, whether it is then closed, whether the callback succeeds, whether `onEnd` is given; the
values the callback is called with (the zero value once, if it goes on for ever). -/
def asyncReceive {α : Type} (zero : α) (callback : α → Bool) (onEnd closed : Bool) : List α → List α × AsyncEnd
  | [] =>
    if closed then
      if !callback zero then ([zero], .returned)
      else if onEnd then ([zero], .returned)
      else ([zero], .spinning)
    else ([], .waiting)
  | v :: rest =>
    if !callback v then ([v], .returned)
    else if onEnd then ([v], .returned)
    else
      let (calls, how) := asyncReceive zero callback onEnd closed rest
      (v :: calls, how)

end Willow
