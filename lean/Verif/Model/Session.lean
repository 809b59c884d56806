import Verif.Model.Messenger

/-!
# Two peers

What happens between the two programs `/repo/pkg/wgps/transport/testalfieserver/server.go` and
`/repo/pkg/wgps/transport/testbettyserver/server.go`, each with a messenger: the main function of
the first sends one message, everything else is done by the goroutines that receive and handle
messages. Steps of all goroutines and of the network may come in any order. Simplification: a
handler does its work in one step.
-/

namespace Willow

/-- One end of a connection: the store, the transport, the goroutines that receive in the role
that this end has, and how many of the messages they have sent on have been handled. -/
structure Peer where
  st : StoreState
  transport : Transport
  receiving : Receiving
  handled : Listener → Nat

/-- What the goroutine of a listener has sent on. -/
def Receiving.out (s : Receiving) : Listener → List Bytes
  | .data => s.data.out
  | .reconciliation => s.reconciliation.out

/-- A peer just after `NewWgpsMessenger`, `/repo/pkg/wgps/wgps_messenger.go:783-843`, and once the
streams are open. -/
def Peer.new (st : StoreState) (t : Transport) : Peer := ⟨st, t, ⟨fun _ => [], .new, .new⟩, fun _ => 0⟩

/-- Two peers and how many bytes the network has delivered: from Alfie to Betty on the streams
that Alfie initiated, and back on the same streams. -/
structure Session where
  alfie : Peer
  betty : Peer
  toBetty : Channel → Nat
  toAlfie : Channel → Nat

/-- The start: `Initiate` of Alfie, `/repo/pkg/wgps/wgps_messenger.go:2605-2629`, and the streams
accepted by Betty. -/
def Session.start (alfie betty : StoreState) : Session :=
  ⟨.new alfie Transport.new.initiate, .new betty Transport.new.accept, fun _ => 0, fun _ => 0⟩

/-- The bytes that have been written to a stream. -/
def streamBytes : Option StreamEnd → Bytes
  | none => []
  | some s => s.written

/-- Bytes that have been written but not delivered arrive (contract of QUIC): at most `n`. -/
def Peer.arrive (p : Peer) (ch : Channel) (bytes : Bytes) : Peer :=
  if bytes = [] then p
  else { p with receiving := { p.receiving with
    arrived := fun c => if c = ch then p.receiving.arrived c ++ [bytes] else p.receiving.arrived c } }

/-- A message has been handled. -/
def Peer.done (p : Peer) (l : Listener) : Peer :=
  { p with handled := fun m => if m = l then p.handled m + 1 else p.handled m }

/-- A goroutine that receives reads once. -/
def Peer.read (maxAlloc : Nat) (p : Peer) (l : Listener) : Res Peer := do
  let r ← p.receiving.step maxAlloc l
  .ok { p with receiving := r }

/-- Handling the next message as Alfie, `/repo/pkg/wgps/wgps_messenger.go:818-823` and 832-837;
`now` is the clock. -/
def Peer.handleAlfie (gob : Gob) (env : StoreEnv) (now : UInt64) (p : Peer) (l : Listener) : Res Peer :=
  match (p.receiving.out l)[p.handled l]? with
  | none => .ok p
  | some msg =>
    match l with
    | .data => do
      let st ← receiveData gob env p.st now msg
      .ok { (p.done l) with st := st }
    | .reconciliation => do
      let t ← initiateReconciliation gob env p.st p.transport msg
      .ok { (p.done l) with transport := t }

/-- Handling the next message as Betty, `/repo/pkg/wgps/wgps_messenger.go:813-816` (which only
prints it) and 825-830. -/
def Peer.handleBetty (gob : Gob) (env : StoreEnv) (fps : FpScheme) (p : Peer) (l : Listener) : Res Peer :=
  match (p.receiving.out l)[p.handled l]? with
  | none => .ok p
  | some msg =>
    match l with
    | .data => .ok (p.done l)
    | .reconciliation => do
      let t ← acceptReconciliation gob env fps p.st p.transport msg
      .ok { (p.done l) with transport := t }

/-- What can happen: the main function of Alfie sends the summary of a range, the network
delivers bytes, a goroutine reads, a message is handled. -/
inductive SessionStep where
  | send (r : Range3d)
  | deliverToBetty (ch : Channel) (n : Nat)
  | deliverToAlfie (ch : Channel) (n : Nat)
  | readAlfie (l : Listener)
  | readBetty (l : Listener)
  | handleAlfie (l : Listener) (now : UInt64)
  | handleBetty (l : Listener)

/-- One step. The message of the main function is the encoding of
`/repo/pkg/wgps/transport/testalfieserver/server.go:122-164`, sent without its length. `env` and
`env'` are the schemes of Alfie's and of Betty's store. -/
def Session.step (gob : Gob) (env env' : StoreEnv) (fps : FpScheme) (maxAlloc : Nat) (s : Session) : SessionStep → Res Session
  | .send r => do
    let summary ← summarise env.lib s.alfie.st.kd r
    let t ← s.alfie.transport.sendIgnoring (encodeSummary gob summary r) .data .alfie
    .ok { s with alfie := { s.alfie with transport := t } }
  | .deliverToBetty ch n =>
    let bytes := ((streamBytes (s.alfie.transport.initiated ch)).drop (s.toBetty ch)).take n
    .ok { s with betty := s.betty.arrive ch bytes
                 toBetty := fun c => if c = ch then s.toBetty c + bytes.length else s.toBetty c }
  | .deliverToAlfie ch n =>
    let bytes := ((streamBytes (s.betty.transport.accepted ch)).drop (s.toAlfie ch)).take n
    .ok { s with alfie := s.alfie.arrive ch bytes
                 toAlfie := fun c => if c = ch then s.toAlfie c + bytes.length else s.toAlfie c }
  | .readAlfie l => do
    let p ← s.alfie.read maxAlloc l
    .ok { s with alfie := p }
  | .readBetty l => do
    let p ← s.betty.read maxAlloc l
    .ok { s with betty := p }
  | .handleAlfie l now => do
    let p ← s.alfie.handleAlfie gob env now l
    .ok { s with alfie := p }
  | .handleBetty l => do
    let p ← s.betty.handleBetty gob env' fps l
    .ok { s with betty := p }

/-- A sequence of steps. -/
def Session.run (gob : Gob) (env env' : StoreEnv) (fps : FpScheme) (maxAlloc : Nat) (s : Session) : List SessionStep → Res Session
  | [] => .ok s
  | x :: rest => do
    let s ← s.step gob env env' fps maxAlloc x
    s.run gob env env' fps maxAlloc rest

end Willow
