import Verif.Lemmas.PropsMessageLayout
import Verif.Props.MessagesReconciliation
import Verif.Props.MessagesSetup

/-! # The layout of messages (C130) -/

namespace Willow.Props

open Spec

/-! ## Data messages -/

/-- C130: send-payload messages. -/
theorem C130_sendPayload (amount : UInt64) (payload : Bytes) :
    SendPayloadLayout amount.toNat (natBytes payload) (natBytes (encodeDataSendPayload amount payload)) := sendPayload_layout amount payload

example : encodeDataSendPayload 3 [7, 8, 9] = [0x64, 3, 7, 8, 9] := by decide

/-- C130: set-eagerness messages. -/
theorem C130_setEagerness (eager : Bool) (sender receiver : UInt64) :
    SetEagernessLayout eager sender.toNat receiver.toNat (natBytes (encodeDataSetEagerness eager sender receiver)) :=
  setEagerness_layout eager sender receiver

example : encodeDataSetEagerness true 300 5 = [0x6a, 0x40, 1, 44, 5] := by decide

/-- C130: bind-payload-request messages. -/
theorem C130_bindPayloadRequest (s : Schemes) (current entry : Entry) (offset capability : UInt64) (enc : Bytes)
    (h : encodeDataBindPayloadRequest s current entry offset capability = .ok enc) : ∃ ee,
    encodeEntryRelativeEntry s.ns s.ss s.pd s.eqNs s.ordS s.p entry current = .ok ee ∧
    BindPayloadRequestLayout offset.toNat capability.toNat (natBytes ee) (natBytes enc) :=
  bindPayloadRequest_layout s current entry offset capability enc h

example : encodeDataBindPayloadRequest exSchemes exRef exEntry 256 300 =
    .ok [0x6d, 0xb0, 1, 44, 1, 0, 0x81, 1, 1, 1, 1, 7, 1, 1, 44, 8, 9] := by decide +kernel

/-- C130: reply-payload messages. -/
theorem C130_replyPayload (handle : UInt64) : ReplyPayloadLayout handle.toNat (natBytes (encodeDataReplyPayload handle)) :=
  replyPayload_layout handle

example : encodeDataReplyPayload 70000 = [0x72, 0, 1, 17, 112] := by decide

/-- C130, partial: send-entry messages. Missing: handles of which the encoder gets the width wrong
(`C130_violated_handle`), offsets other than 0 and the length of the payload (`C130_violated_offset`). -/
theorem C130_sendEntry_partial (s : Schemes) (current entry : Entry) (handle : UInt64) (token : Bytes) (offset : UInt64) (enc : Bytes)
    (hh : handle.toNat < 256 ∧ handle.toNat ≠ 2 ∧ handle.toNat ≠ 4 ∧ handle.toNat ≠ 8)
    (ho : offset = 0 ∨ offset = entry.payloadLength)
    (h : encodeDataSendEntry s current entry handle token offset = .ok enc) : ∃ ee,
    encodeEntryRelativeEntry s.ns s.ss s.pd s.eqNs s.ordS s.p entry current = .ok ee ∧
    SendEntryLayout entry.payloadLength.toNat handle.toNat offset.toNat (natBytes (s.dynamicToken.enc token)) (natBytes ee)
      (natBytes enc) := sendEntry_layout s current entry handle token offset enc hh ho h

example : encodeDataSendEntry exSchemes exRef exEntry 7 [1, 2] exEntry.payloadLength =
    .ok [0x60, 0x30, 7, 1, 2, 0x81, 1, 1, 1, 1, 7, 1, 1, 44, 8, 9] := by decide +kernel

/-- C130 is violated by send-entry messages: the width of a handle that is 2, 4, 8 or at least 256 is wrong in the first byte. -/
theorem C130_violated_handle (s : Schemes) (current entry : Entry) (handle : UInt64) (token : Bytes) (offset : UInt64) (enc : Bytes)
    (hh : 256 ≤ handle.toNat ∨ handle.toNat = 2 ∨ handle.toNat = 4 ∨ handle.toNat = 8)
    (h : encodeDataSendEntry s current entry handle token offset = .ok enc) (t e : List Nat) :
    ¬ SendEntryLayout entry.payloadLength.toNat handle.toNat offset.toNat t e (natBytes enc) :=
  sendEntry_unlike_handle s current entry handle token offset enc hh h _ _ t e

example : encodeDataSendEntry exSchemes exRef exEntry 300 [1, 2] 0 =
    .ok [0x60, 0x10, 1, 44, 1, 2, 0x81, 1, 1, 1, 1, 7, 1, 1, 44, 8, 9] := by decide +kernel

/-- C130 is violated by send-entry messages: an offset that is neither 0 nor the length of the payload is missing. -/
theorem C130_violated_offset (s : Schemes) (current entry : Entry) (handle : UInt64) (token : Bytes) (offset : UInt64) (enc ee : Bytes)
    (ho : offset ≠ 0 ∧ offset ≠ entry.payloadLength)
    (h : encodeDataSendEntry s current entry handle token offset = .ok enc)
    (hee : encodeEntryRelativeEntry s.ns s.ss s.pd s.eqNs s.ordS s.p entry current = .ok ee) :
    ¬ SendEntryLayout entry.payloadLength.toNat handle.toNat offset.toNat (natBytes (s.dynamicToken.enc token)) (natBytes ee)
      (natBytes enc) := sendEntry_unlike_offset s current entry handle token offset enc ee ho h hee

example : encodeDataSendEntry exSchemes exRef exEntry 7 [1, 2] 5 =
    .ok [0x60, 0x80 + 0x10, 7, 1, 2, 0x81, 1, 1, 1, 1, 7, 1, 1, 44, 8, 9] ∧
    encodeEntryRelativeEntry exSchemes.ns exSchemes.ss exSchemes.pd exSchemes.eqNs exSchemes.ordS exSchemes.p exEntry exRef =
      .ok [0x81, 1, 1, 1, 1, 7, 1, 1, 44, 8, 9] := by decide +kernel

/-! ## Setup messages -/

/-- C130, partial: bind-read-capability messages. Missing: handles that do not fit the integers of the path scheme
(`C130_violated_cut`). -/
theorem C130_bindReadCapability_partial (s : Schemes) (capability : Bytes) (handle : UInt64) (signature : Bytes)
    (hb : handle.toNat < 2 ^ s.p.bits) : BindReadCapabilityLayout handle.toNat (natBytes (s.readCap.enc capability))
      (natBytes (s.syncSig.enc signature)) (natBytes (encodeSetupBindReadCapability s capability handle signature)) :=
  bindReadCapability_layout s capability handle signature hb

example : encodeSetupBindReadCapability exSchemes [1, 2] 200 [3, 4] = [0x20, 200, 1, 2, 3, 4] ∧
    (200 : UInt64).toNat < 2 ^ exSchemes.p.bits := by decide

/-- C130 is violated by bind-read-capability messages with a handle that does not fit the integers of the path scheme: it
is cut. -/
theorem C130_violated_cut (s : Schemes) (capability : Bytes) (handle : UInt64) (signature : Bytes)
    (hb : 2 ^ s.p.bits ≤ handle.toNat) (c g : List Nat) :
    ¬ BindReadCapabilityLayout handle.toNat c g (natBytes (encodeSetupBindReadCapability s capability handle signature)) :=
  bindReadCapability_unlike s capability handle signature hb c g

example : encodeSetupBindReadCapability exSchemes [1, 2] 300 [3, 4] = [0x20, 44, 1, 2, 3, 4] ∧
    2 ^ exSchemes.p.bits ≤ (300 : UInt64).toNat := by decide

/-- C130, partial: bind-area-of-interest messages. Missing: areas with limits (`C130_violated_limits`), handles that do not
fit the integers of the path scheme. -/
theorem C130_bindAreaOfInterest_partial (s : Schemes) (outer : Area) (aoi : AreaOfInterest) (handle : UInt64) (enc : Bytes)
    (hb : handle.toNat < 2 ^ s.p.bits) (hc : aoi.maxCount = 0) (hs : aoi.maxSize = 0)
    (h : encodeSetupBindAreaOfInterest s outer aoi handle = .ok enc) : ∃ ea, encodeAreaInArea s.ss s.ordS s.p aoi.area outer = .ok ea ∧
    BindAreaOfInterestLayout handle.toNat aoi.maxCount.toNat aoi.maxSize.toNat (natBytes ea) (natBytes enc) :=
  bindAreaOfInterest_layout s outer aoi handle enc hb hc hs h

example : encodeSetupBindAreaOfInterest exSchemes exOuterArea ⟨exInner, 0, 0⟩ 7 = .ok [0x28, 7, 0x24, 1, 34, 1, 1, 1, 1, 2] := by
  decide +kernel

/-- C130 is violated by bind-area-of-interest messages for areas with limits: the flag for limits is never set. -/
theorem C130_violated_limits (s : Schemes) (outer : Area) (aoi : AreaOfInterest) (handle : UInt64) (enc : Bytes)
    (hl : aoi.maxCount ≠ 0 ∨ aoi.maxSize ≠ 0) (h : encodeSetupBindAreaOfInterest s outer aoi handle = .ok enc) (area : List Nat) :
    ¬ BindAreaOfInterestLayout handle.toNat aoi.maxCount.toNat aoi.maxSize.toNat area (natBytes enc) :=
  bindAreaOfInterest_unlike s outer aoi handle enc _ area hl h

example : encodeSetupBindAreaOfInterest exSchemes exOuterArea ⟨exInner, 3, 5⟩ 7 =
    .ok [0x28, 7, 0x24, 1, 34, 1, 1, 1, 1, 2, 0, 3, 5] := by decide +kernel

/-- C130: bind-static-token messages. -/
theorem C130_bindStaticToken (s : Schemes) (token : Bytes) :
    BindStaticTokenLayout (natBytes (s.staticToken.enc token)) (natBytes (encodeSetupBindStaticToken s token)) :=
  bindStaticToken_layout s token

example : encodeSetupBindStaticToken exSchemes [1, 2] = [0x30, 1, 2] := by decide

/-! ## Private area intersection -/

/-- C130: bind-fragment messages. -/
theorem C130_bindFragment (s : Schemes) (member : Bytes) (secondary : Bool) :
    BindFragmentLayout secondary (natBytes (s.groupMember.enc member)) (natBytes (encodePaiBindFragment s member secondary)) :=
  bindFragment_layout s member secondary

example : (encodePaiBindFragment exSchemes [1, 2] true).head? = some 6 := by decide

/-- C130 is violated by the messages about a fragment: they have their layout for the handle 1 only, because the
number of bytes of the handle stands where the handle should. -/
theorem C130_violated_fragment (s : Schemes) (handle : UInt64) (member capability signature : Bytes) :
    (AboutFragmentLayout 2 handle.toNat (natBytes (s.groupMember.enc member)) (natBytes (encodePaiReplyFragment s handle member)) ↔
      handle = 1) ∧
    (AboutFragmentLayout 3 handle.toNat [] (natBytes (encodePaiRequestSubspaceCapability handle)) ↔ handle = 1) ∧
    (AboutFragmentLayout 4 handle.toNat (natBytes (s.subspaceCap.enc capability ++ s.subspaceSig.enc signature))
      (natBytes (encodePaiReplySubspaceCapability s handle capability signature)) ↔ handle = 1) := by
  refine ⟨aboutFragment_layout (by decide) handle _, ?_, ?_⟩
  · have := aboutFragment_layout (kind := 3) (a := 0xc) (b := 0xd) (c := 0xe) (d := 0xf) (by decide) handle []
    rw [List.append_nil] at this
    exact this
  · have := aboutFragment_layout (kind := 4) (a := 0x10) (b := 0x11) (c := 0x12) (d := 0x13) (by decide) handle
      (s.subspaceCap.enc capability ++ s.subspaceSig.enc signature)
    rw [← List.append_assoc] at this
    exact this

example : encodePaiRequestSubspaceCapability 300 = [0xd, 2] := by decide

/-! ## Reconciliation messages -/

/-- C130, partial: send-fingerprint messages. Missing: handles of different widths (`C130_violated_widths`), numbers that do not
fit the integers of the path scheme. -/
theorem C130_sendFingerprint_partial (s : Schemes) (privy : Privy) (range : Range3d) (fingerprint : Bytes)
    (sender receiver covers : UInt64) (enc : Bytes) (hs : sender.toNat < 2 ^ s.p.bits) (hr : receiver.toNat < 2 ^ s.p.bits)
    (hc : covers.toNat < 2 ^ s.p.bits)
    (hw : sender = privy.prevSenderHandle ∧ receiver = privy.prevReceiverHandle ∨
      ∀ w, WidthCode sender.toNat w ↔ WidthCode receiver.toNat w)
    (h : encodeReconciliationSendFingerprint s privy range fingerprint sender receiver covers = .ok enc) :
    ∃ er, encodeRange3dRelative s.ss s.ordS s.p range privy.prevRange = .ok er ∧
    SendFingerprintLayout (fingerprint = s.neutral) (sender = privy.prevSenderHandle) (receiver = privy.prevReceiverHandle)
      sender.toNat receiver.toNat covers.toNat (natBytes (s.fingerprint.enc fingerprint)) (natBytes er) (natBytes enc) :=
  sendFingerprint_layout s privy range fingerprint sender receiver covers enc hs hr hc hw h

example : encodeReconciliationSendFingerprint exSchemes exPrivy exRange [9, 9] 7 8 200 =
      .ok [0x44, 0x08, 200, 7, 8, 9, 9, 0x68, 0xc0, 1, 0, 2, 0, 2, 0, 1, 17, 113] ∧ (200 : UInt64).toNat < 2 ^ exSchemes.p.bits := by
  decide +kernel

example : ∀ w, WidthCode (7 : UInt64).toNat w ↔ WidthCode (8 : UInt64).toNat w := fun w => by
  have h7 : WidthCode (7 : UInt64).toNat 0 := ⟨by decide, by decide, by simp⟩
  have h8 : WidthCode (8 : UInt64).toNat 0 := ⟨by decide, by decide, by simp⟩
  exact ⟨fun h => widthCode_unique h7 h ▸ h8, fun h => widthCode_unique h8 h ▸ h7⟩

/-- C130 is violated by send-fingerprint messages with handles of different widths, unless both are the previous ones: each width
stands where the other should. -/
theorem C130_violated_widths (s : Schemes) (privy : Privy) (range : Range3d) (fingerprint : Bytes)
    (sender receiver covers : UInt64) (enc : Bytes) (hs : sender.toNat < 2 ^ s.p.bits) (hr : receiver.toNat < 2 ^ s.p.bits)
    (hw : sender ≠ privy.prevSenderHandle ∨ receiver ≠ privy.prevReceiverHandle)
    (hd : ∀ w, ¬ (WidthCode sender.toNat w ∧ WidthCode receiver.toNat w))
    (h : encodeReconciliationSendFingerprint s privy range fingerprint sender receiver covers = .ok enc) (f r : List Nat) :
    ¬ SendFingerprintLayout (fingerprint = s.neutral) (sender = privy.prevSenderHandle) (receiver = privy.prevReceiverHandle)
      sender.toNat receiver.toNat covers.toNat f r (natBytes enc) :=
  sendFingerprint_unlike s privy range fingerprint sender receiver covers enc hs hr hw hd h _ _ f r

example : encodeReconciliationSendFingerprint exSchemes64 exPrivy exRange [9, 9] 300 7 200 =
      .ok [0x44, 0x18, 200, 1, 44, 7, 9, 9, 0x68, 0xc0, 1, 0, 2, 0, 2, 0, 1, 17, 113] ∧
    (300 : UInt64) ≠ exPrivy.prevSenderHandle := by decide +kernel

example : ∀ w, ¬ (WidthCode (300 : UInt64).toNat w ∧ WidthCode (7 : UInt64).toNat w) := fun w h => by
  have h7 : WidthCode (7 : UInt64).toNat 0 := ⟨by decide, by decide, by simp⟩
  obtain rfl := widthCode_unique h.2 h7
  exact absurd h.1.2.1 (by decide)

/-- C130, partial: announce-entries messages. Missing: numbers that do not fit the integers of the path scheme. -/
theorem C130_announceEntries_partial (s : Schemes) (privy : Privy) (range : Range3d) (count : UInt64) (want sort : Bool)
    (sender receiver covers : UInt64) (enc : Bytes) (hs : sender.toNat < 2 ^ s.p.bits) (hr : receiver.toNat < 2 ^ s.p.bits)
    (hn : count.toNat < 2 ^ s.p.bits) (hc : covers.toNat < 2 ^ s.p.bits)
    (h : encodeReconciliationAnnounceEntries s privy range count want sort sender receiver covers = .ok enc) :
    ∃ er, encodeRange3dRelative s.ss s.ordS s.p range privy.prevRange = .ok er ∧
    AnnounceEntriesLayout (want = true) (sort = true) (sender = privy.prevSenderHandle) (receiver = privy.prevReceiverHandle)
      sender.toNat receiver.toNat count.toNat covers.toNat (natBytes er) (natBytes enc) :=
  announceEntries_layout s privy range count want sort sender receiver covers enc hs hr hn hc h

example : encodeReconciliationAnnounceEntries exSchemes64 exPrivy exRange 300 true true 7 8 400 =
      .ok [0x5c, 0x07, 0xfd, 1, 144, 7, 8, 1, 44, 0x68, 0xc0, 1, 0, 2, 0, 2, 0, 1, 17, 113] ∧
    (400 : UInt64).toNat < 2 ^ exSchemes64.p.bits := by decide +kernel

/-- C130, partial: send-entry messages of the reconciliation. Missing: the handle 63 (`C130_violated_63`), numbers that do not
fit the integers of the path scheme. -/
theorem C130_sendAnnounced_partial (s : Schemes) (privy : Privy) (entry : Entry) (available handle : UInt64) (token enc : Bytes)
    (ha : available.toNat < 2 ^ s.p.bits) (hh : handle.toNat < 2 ^ s.p.bits) (h63 : handle = 63 → handle = privy.prevStaticTokenHandle)
    (h : encodeReconciliationSendEntry s privy entry available handle token = .ok enc) :
    ∃ ee, encodeEntryRelativeEntry s.ns s.ss s.pd s.eqNs s.ordS s.p entry privy.prevEntry = .ok ee ∧
    SendAnnouncedLayout (handle = privy.prevStaticTokenHandle) available.toNat handle.toNat (natBytes (s.dynamicToken.enc token))
      (natBytes ee) (natBytes enc) := sendAnnounced_layout s privy entry available handle token enc ha hh h63 h

example : encodeReconciliationSendEntry exSchemes exPrivy exEntry 200 70 [1, 2] =
      .ok [0x54, 0x3f, 70, 200, 1, 2, 0x81, 1, 1, 1, 1, 7, 1, 1, 44, 8, 9] ∧
    (70 : UInt64).toNat < 2 ^ exSchemes.p.bits ∧ (200 : UInt64).toNat < 2 ^ exSchemes.p.bits := by decide +kernel

/-- C130 is violated by send-entry messages of the reconciliation with the handle 63: the byte that says that the handle
follows is there, but the handle is not. -/
theorem C130_violated_63 (s : Schemes) (privy : Privy) (entry : Entry) (available : UInt64) (token enc ee : Bytes)
    (ha : available.toNat < 2 ^ s.p.bits) (h63 : privy.prevStaticTokenHandle ≠ 63)
    (h : encodeReconciliationSendEntry s privy entry available 63 token = .ok enc)
    (hee : encodeEntryRelativeEntry s.ns s.ss s.pd s.eqNs s.ordS s.p entry privy.prevEntry = .ok ee) :
    ¬ SendAnnouncedLayout ((63 : UInt64) = privy.prevStaticTokenHandle) available.toNat (63 : UInt64).toNat
      (natBytes (s.dynamicToken.enc token)) (natBytes ee) (natBytes enc) :=
  sendAnnounced_unlike s privy entry available token enc ee ha h63 h hee

example : encodeReconciliationSendEntry exSchemes exPrivy exEntry 200 63 [1, 2] =
      .ok [0x54, 0x3f, 200, 1, 2, 0x81, 1, 1, 1, 1, 7, 1, 1, 44, 8, 9] ∧ (63 : UInt64) ≠ exPrivy.prevStaticTokenHandle := by
  decide +kernel

/-- C130, partial: send-payload messages of the reconciliation. Missing: amounts that do not fit the integers of the path scheme. -/
theorem C130_sendPart_partial (s : Schemes) (amount : UInt64) (payload : Bytes) (ha : amount.toNat < 2 ^ s.p.bits) :
    SendPartLayout amount.toNat (natBytes payload) (natBytes (encodeReconciliationSendPayload s amount payload)) :=
  sendPart_layout s amount payload ha

example : encodeReconciliationSendPayload exSchemes 3 [7, 8, 9] = [0x50, 3, 7, 8, 9] ∧
    (3 : UInt64).toNat < 2 ^ exSchemes.p.bits := by decide

end Willow.Props
