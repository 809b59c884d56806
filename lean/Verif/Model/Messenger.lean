import Verif.Model.Transport
import Verif.Model.MessageLoop
import Verif.Model.Store

/-!
# The handlers of the messenger

The part of `/repo/pkg/wgps/wgps_messenger.go` that is not commented out: what is done with a
received message. The goroutines that receive are in `Verif/Model/Transport.lean`.
-/

namespace Willow

/-- What `encoding/gob` writes and reads (contract): a range, an entry with its payload, and what
it writes for a value of a structure type without exported fields before it fails, which is the
description of the type. Nil and empty slices are not distinguished. -/
structure Gob where
  range : Range3d → Bytes
  rangeBack : Bytes → Range3d
  entry : Entry → Bytes → Bytes
  entryBack : Bytes → Entry × Bytes
  typeOnly : Bytes

/-- `binary.BigEndian.PutUint64`: panics if the slice has fewer than eight bytes. -/
def putUint64 (b : Bytes) (v : UInt64) : Res Bytes :=
  if b.length < 8 then .crash else .ok (bigIntToBytes v ++ b.drop 8)

/-- `EncodeSummary`, `/repo/pkg/wgps/wgps_messenger.go:2885-2901`: the fields of the structure are
not exported. -/
def encodeSummary (gob : Gob) (_value : Bytes × UInt64) (_ourRange : Range3d) : Bytes := gob.typeOnly

/-- `DecodeSummary`, `/repo/pkg/wgps/wgps_messenger.go:2902-2922`: no field can be set, whatever
the bytes. -/
def decodeSummary (_value : Bytes) : (Bytes × UInt64) × Range3d := (([], 0), zeroRange3d)

/-- The three results of `Respond`, `/repo/pkg/wgps/wgps_messenger.go:2969-2978`. -/
structure MessengerAnswer where
  left : Range3d × Bytes
  right : Range3d × Bytes
  wantResponse : Bool
  range : Range3d
deriving DecidableEq

/-- `Respond`, `/repo/pkg/wgps/wgps_messenger.go:2947-3037`. -/
def messengerRespond (lib : KdLib) (fps : FpScheme) (kd : List KdKey) (yourRange : Range3d) (fingerprint : Bytes) :
    Res MessengerAnswer := do
  let (fp, size) ← summarise lib kd yourRange
  if fps.isEqual fingerprint (fps.finalise fp) then
    .ok ⟨(zeroRange3d, []), (zeroRange3d, []), false, zeroRange3d⟩
  else if size ≤ 8 then .ok ⟨(zeroRange3d, []), (zeroRange3d, []), true, yourRange⟩
  else do
    let (left, right) ← splitRange lib kd yourRange
    let (leftFp, _) ← summarise lib kd left
    let (rightFp, _) ← summarise lib kd right
    .ok ⟨(left, fps.finalise leftFp), (right, fps.finalise rightFp), false, zeroRange3d⟩

/-- A call of `Send` whose error is ignored, as all calls in the messenger are. -/
def Transport.sendIgnoring (t : Transport) (data : Bytes) (channel : Channel) (role : SyncRole) : Res Transport :=
  match t.send data channel role with
  | .err => .ok t
  | r => r

/-- A message with its length before it, as in `/repo/pkg/wgps/wgps_messenger.go:2786-2788`,
2801-2803 and 2806-2808: the slice that the length is put into is nil. -/
def withLength (body : Bytes) : Res Bytes := do
  let length ← putUint64 [] (UInt64.ofNat body.length)
  .ok (length ++ body)

/-- The loop of `HandleMsgReconciliationAcceptor`, `/repo/pkg/wgps/wgps_messenger.go:2779-2790`.
After an error of `GetPayload` the payload is nil. -/
def sendEntries (gob : Gob) (env : StoreEnv) (st : StoreState) : List (Entry × Bytes) → Transport → Res Transport
  | [], t => .ok t
  | (entry, _) :: rest, t => do
    let payload ← storeGetPayload env st entry.position
    let bytes ← withLength (gob.entry entry (payload.getD []))
    let t ← t.sendIgnoring bytes .data .betty
    sendEntries gob env st rest t

/-- `HandleMsgReconciliationAcceptor`, `/repo/pkg/wgps/wgps_messenger.go:2748-2811`. An error of
`Query` ends the process (line 2777). -/
def handleReconciliationAcceptor (gob : Gob) (env : StoreEnv) (fps : FpScheme) (st : StoreState) (t : Transport)
    (rangeSummary : Range3d) (summary : Bytes) : Res Transport := do
  let answer ← messengerRespond env.lib fps st.kd rangeSummary summary
  if answer.wantResponse then
    match entryQuery env st answer.range with
    | .ok extendedEntries => sendEntries gob env st extendedEntries t
    | _ => .crash
  else if answer.left = (zeroRange3d, []) ∧ answer.right = (zeroRange3d, []) then .ok t
  else do
    let bytes ← withLength (gob.range answer.left.1)
    let t ← t.sendIgnoring bytes .reconciliation .betty
    let bytes ← withLength (gob.range answer.right.1)
    t.sendIgnoring bytes .reconciliation .betty

/-- What is done with a message given to the accepting reconciliation listener,
`/repo/pkg/wgps/wgps_messenger.go:825-830`. -/
def acceptReconciliation (gob : Gob) (env : StoreEnv) (fps : FpScheme) (st : StoreState) (t : Transport) (msg : Bytes) :
    Res Transport :=
  let (extendedFingerprint, range3d) := decodeSummary msg
  handleReconciliationAcceptor gob env fps st t range3d extendedFingerprint.1

/-- `HandleMsgReconciliationInitiator`, `/repo/pkg/wgps/wgps_messenger.go:2813-2837`. -/
def handleReconciliationInitiator (gob : Gob) (env : StoreEnv) (st : StoreState) (t : Transport) (value : Range3d) :
    Res Transport := do
  let summaryValue ← summarise env.lib st.kd value
  t.sendIgnoring (encodeSummary gob summaryValue value) .reconciliation .alfie

/-- What is done with a message given to the initiator's reconciliation listener,
`/repo/pkg/wgps/wgps_messenger.go:832-837`. -/
def initiateReconciliation (gob : Gob) (env : StoreEnv) (st : StoreState) (t : Transport) (msg : Bytes) : Res Transport :=
  handleReconciliationInitiator gob env st t (gob.rangeBack msg)

/-- `HandleDataInitiator`, `/repo/pkg/wgps/wgps_messenger.go:2839-2868`; `now` is the clock. What
`Set` returns is ignored. -/
def handleData (env : StoreEnv) (st : StoreState) (now : UInt64) (entry : Entry) (payload : Bytes) : Res StoreState := do
  let (_, st) ← storeSet env st now ⟨entry.subspaceId, entry.path, entry.timestamp, payload⟩ entry.subspaceId
  .ok st

/-- What is done with a message given to the initiator's data listener,
`/repo/pkg/wgps/wgps_messenger.go:818-823`. -/
def receiveData (gob : Gob) (env : StoreEnv) (st : StoreState) (now : UInt64) (msg : Bytes) : Res StoreState :=
  let (entry, payload) := gob.entryBack msg
  handleData env st now entry payload

end Willow
