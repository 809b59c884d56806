import Verif.Model.DataSender

/-! # Offsets that a peer asks for

`dataMessages` in `Verif/Model/Wgps.lean` takes for granted that the slice for the bytes of a payload can be made. Here the
slice is as long as the code makes it; `maxAlloc` is the greatest length that the machine can have (2^48 on amd64). -/

namespace Willow

/-- `BytesWithOffset(int(offset))` of a queued payload,
`/repo/pkg/data_model/payload_kv_driver/filesystem.go:37-56`; `none` is a file that cannot be opened (38-41). The offset is
converted to `int` by the callers (`/repo/pkg/wgps/data/data_sender.go:111, 136`). `make` (line 50) panics for a length
that is negative or too great; `ReadAt` (line 51) returns an error for a negative offset. -/
def openPayload (maxAlloc : Nat) (content : Option Bytes) (offset : UInt64) : Res Bytes :=
  match content with
  | none => .err
  | some bytes =>
    let off := goInt offset.toNat
    if off ≥ bytes.length then .err
    else
      let length := goInt ((bytes.length : Int) - off).toNat
      if length < 0 ∨ length > maxAlloc then .crash
      else if off < 0 then .err
      else .ok (bytes.drop off.toNat)

/-- A header and the payload after it, `/repo/pkg/wgps/data/data_sender.go:102-126` and 129-151, and what `more` yields for
the elements after it. After an error nothing more is made. -/
def sendPayloadOf (maxAlloc : Nat) (transform : Bytes → Bytes) (header : DataMsg) (content : Option Bytes) (offset : UInt64)
    (more : Res (List DataMsg × Bool)) : Res (List DataMsg × Bool) :=
  match openPayload maxAlloc content offset with
  | .err => .ok ([header], true)
  | .crash => .crash
  | .block => .block
  | .ok bytes => do
    let (ms, failed) ← more
    .ok (header :: (payloadMessages transform bytes ++ ms), failed)

/-- `Messages`, `/repo/pkg/wgps/data/data_sender.go:95-158`: the messages, and whether an error is returned. -/
def messagesOf (maxAlloc : Nat) (transform : Bytes → Bytes) (w : SenderWorld) : List Queued → Res (List DataMsg × Bool)
  | [] => .ok ([], false)
  | .nil :: rest => messagesOf maxAlloc transform w rest
  | .entry e offset staticTokenHandle dynamicToken :: rest =>
    sendPayloadOf maxAlloc transform (.sendEntry e staticTokenHandle dynamicToken offset) (w.payload e) offset
      (messagesOf maxAlloc transform w rest)
  | .request handle offset e :: rest =>
    sendPayloadOf maxAlloc transform (.replyPayload handle) (w.payload e) offset (messagesOf maxAlloc transform w rest)

end Willow
