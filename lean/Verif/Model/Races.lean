import Verif.Model.Messages

/-!
# Send-entry messages and the goroutines that read their parts

`DecodeReconciliationSendEntry` starts the decoder of the dynamic token and receives the token only at the end, after the
entry, and it does not wait at all for an entry that is encoded in the announced range. Stream decoders read in goroutines of
their own (`/repo/pkg/data_model/store/test_schemes.go:102-107`, `/repo/utils/entries.go:226, 424`), so the order in which the
parts are read is not fixed. `decodeReconciliationSendEntry` in `Messages.lean` is the run in which each goroutine reads as
soon as it is started.
-/

namespace Willow

/-- `/repo/pkg/wgps/decoding/reconciliation.go:232-277`: the static token handle, the number of available bytes and
whether the entry is encoded relative to the previous one. -/
def sendEntryHead (privy : Privy) : Dec (UInt64 × UInt64 × Bool) := do
  let width ← nextAbsolute 1
  let header ← Dec.lift (byteAt width 0)
  let isPrev := header &&& 0x8 == 0x8
  let relative := header &&& 0x4 == 0x4
  let wAvailable := 2 ^ (header &&& 0x3).toNat
  let staticTokenHandle ←
    (if isPrev then do
       prune 1
       return privy.prevStaticTokenHandle
     else do
       let width1 ← nextAbsolute 2
       let size ← Dec.lift (byteAt width1 1)
       let w := if size &&& 0xff == 0xff then 8 else if size &&& 0xbf == 0xbf then 4
         else if size &&& 0x7f == 0x7f then 2 else 1
       let width2 ← nextAbsolute (2 + w)
       let handle ← (if size < 63 then pure (UInt64.ofNat size.toNat) else compactAt width2 2 w)
       prune (2 + w)
       return handle)
  let available ← takeCompact wAvailable
  return (staticTokenHandle, available, relative)

/-- `/repo/pkg/wgps/decoding/reconciliation.go:281-311`: the entry. If it is not relative to the previous one, nobody waits
for its goroutine; without `soon` this has not read anything when the message is returned. -/
def sendEntryEntry (s : Schemes) (privy : Privy) (relative soon : Bool) : Dec Entry :=
  if relative then decodeStreamEntryRelativeEntry s.ns s.ss s.pd s.p privy.prevEntry
  else if soon then do
    let _ ← (decodeStreamEntryRelativeRange3dE s.ss s.pd s.p privy.announcedRange privy.announcedNamespace).ignoring zeroEntry
    return zeroEntry
  else pure zeroEntry

/-- `DecodeReconciliationSendEntry`, `/repo/pkg/wgps/decoding/reconciliation.go:231-324`, in an order of the goroutines: the
token is read before the entry (279) or when it is received (320). Simplification: the token and the entry are not read
by turns. -/
def decodeReconciliationSendEntryRun (s : Schemes) (privy : Privy) (tokenSoon entrySoon : Bool) : Dec Msg := do
  let (staticTokenHandle, available, relative) ← sendEntryHead privy
  if tokenSoon then do
    let dynamicToken ← s.dynamicToken.decStream
    let entry ← sendEntryEntry s privy relative entrySoon
    return ⟨.reconciliationSendEntry, .reconciliationSendEntry entry available staticTokenHandle dynamicToken⟩
  else do
    let entry ← sendEntryEntry s privy relative entrySoon
    let dynamicToken ← s.dynamicToken.decStream
    return ⟨.reconciliationSendEntry, .reconciliationSendEntry entry available staticTokenHandle dynamicToken⟩

end Willow
