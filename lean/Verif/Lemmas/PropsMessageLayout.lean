import Verif.Spec.MessageLayout
import Verif.Lemmas.PropsEntryLayout

/-! Helper lemmas for C130: the layout of messages. -/

namespace Willow.Props

open Spec

theorem conv_small {s : Schemes} {n : Nat} (h : n < 2 ^ s.p.bits) : s.p.conv n = n := Nat.mod_eq_of_lt h

theorem bit_true {q : Prop} [Decidable q] (h : q) : bit q = 1 := if_pos h

theorem bit_false {q : Prop} [Decidable q] (h : ¬ q) : bit q = 0 := if_neg h

theorem endMask_pow {w : Nat} (h : w = 0 ∨ w = 1 ∨ w = 2 ∨ w = 3) : compactWidthEndMask (2 ^ w) = w := by
  rcases h with rfl | rfl | rfl | rfl <;> rfl

theorem widthCode_zero {w : Nat} (h : WidthCode 0 w) : w = 0 := by
  refine Nat.eq_zero_of_not_pos fun hw => ?_
  have := h.2.2 0 hw
  simp at this

theorem sendPayload_layout (amount : UInt64) (payload : Bytes) :
    SendPayloadLayout amount.toNat (natBytes payload) (natBytes (encodeDataSendPayload amount payload)) := by
  obtain ⟨w, h1, h2, -, h3⟩ := width_layout amount.toNat_lt
  refine ⟨w, h1, ?_⟩
  unfold encodeDataSendPayload
  simp only [List.cons_append, List.nil_append, natBytes_cons, natBytes_append, h3, h2]
  congr 1
  rcases widthCode_cases h1 with rfl | rfl | rfl | rfl <;> rfl

theorem setEagerness_layout (eager : Bool) (sender receiver : UInt64) :
    SetEagernessLayout eager sender.toNat receiver.toNat (natBytes (encodeDataSetEagerness eager sender receiver)) := by
  obtain ⟨ws, h1, h2, -, h3⟩ := width_layout sender.toNat_lt
  obtain ⟨wr, f1, f2, -, f3⟩ := width_layout receiver.toNat_lt
  refine ⟨ws, wr, h1, f1, ?_⟩
  unfold encodeDataSetEagerness
  simp only [List.cons_append, List.nil_append, natBytes_cons, natBytes_append, h3, h2, f3, f2]
  congr 1
  · cases eager <;> rfl
  · congr 1
    rcases widthCode_cases h1 with rfl | rfl | rfl | rfl <;> rcases widthCode_cases f1 with rfl | rfl | rfl | rfl <;> rfl

theorem bindPayloadRequest_layout (s : Schemes) (current entry : Entry) (offset capability : UInt64) (enc : Bytes)
    (h : encodeDataBindPayloadRequest s current entry offset capability = .ok enc) : ∃ ee,
    encodeEntryRelativeEntry s.ns s.ss s.pd s.eqNs s.ordS s.p entry current = .ok ee ∧
    BindPayloadRequestLayout offset.toNat capability.toNat (natBytes ee) (natBytes enc) := by
  unfold encodeDataBindPayloadRequest at h
  obtain ⟨ee, he, h⟩ := Res.bind_eq_ok.1 h
  cases h
  refine ⟨ee, he, ?_⟩
  obtain ⟨wc, h1, h2, -, h3⟩ := width_layout capability.toNat_lt
  obtain ⟨wo, f1, f2, -, f3⟩ := width_layout offset.toNat_lt
  refine ⟨wc, wo, h1, f1, ?_⟩
  have hz : offset = 0 ↔ offset.toNat = 0 := by rw [← UInt64.toNat_inj]; rfl
  simp only [List.cons_append, List.nil_append, natBytes_cons, natBytes_append, h3, h2, f2, List.append_assoc]
  by_cases h0 : offset = 0
  · have h0' := hz.1 h0
    rw [h0'] at f1
    have := widthCode_zero f1
    subst this
    simp only [h0, h0', if_true, ne_eq, not_true_eq_false, if_false, natBytes_nil]
    congr 1
    rcases widthCode_cases h1 with rfl | rfl | rfl | rfl <;> rfl
  · have h0' : ¬ offset.toNat = 0 := fun hh => h0 (hz.2 hh)
    simp only [h0, h0', if_false, ne_eq, not_false_eq_true, if_true, f3]
    congr 1
    · rcases widthCode_cases h1 with rfl | rfl | rfl | rfl <;> rfl
    · congr 1
      rcases widthCode_cases f1 with rfl | rfl | rfl | rfl <;> rfl

theorem replyPayload_layout (handle : UInt64) : ReplyPayloadLayout handle.toNat (natBytes (encodeDataReplyPayload handle)) := by
  obtain ⟨w, h1, h2, -, h3⟩ := width_layout handle.toNat_lt
  refine ⟨w, h1, ?_⟩
  unfold encodeDataReplyPayload
  simp only [List.cons_append, List.nil_append, natBytes_cons, h3, h2]
  congr 1
  rcases widthCode_cases h1 with rfl | rfl | rfl | rfl <;> rfl

/-- The code the encoder of data-send-entry messages finds for a handle. -/
theorem sendEntry_code (handle : UInt64) : compactWidthOr 0 (widthKey handle) =
    if handle.toNat = 2 then 1 else if handle.toNat = 4 then 2 else if handle.toNat = 8 then 3 else 0 := by
  unfold compactWidthOr widthKey compactWidthEndMask
  simp only [Nat.zero_or]
  by_cases h : handle.toNat < 2 ^ 63
  · simp only [h, if_true]
  · simp only [h, if_false]
    rw [if_neg (by omega), if_neg (by omega), if_neg (by omega), if_neg (by omega), if_neg (by omega), if_neg (by omega)]

theorem sendEntry_layout (s : Schemes) (current entry : Entry) (handle : UInt64) (token : Bytes) (offset : UInt64) (enc : Bytes)
    (hh : handle.toNat < 256 ∧ handle.toNat ≠ 2 ∧ handle.toNat ≠ 4 ∧ handle.toNat ≠ 8)
    (ho : offset = 0 ∨ offset = entry.payloadLength)
    (h : encodeDataSendEntry s current entry handle token offset = .ok enc) : ∃ ee,
    encodeEntryRelativeEntry s.ns s.ss s.pd s.eqNs s.ordS s.p entry current = .ok ee ∧
    SendEntryLayout entry.payloadLength.toNat handle.toNat offset.toNat (natBytes (s.dynamicToken.enc token)) (natBytes ee)
      (natBytes enc) := by
  unfold encodeDataSendEntry at h
  obtain ⟨ee, he, h⟩ := Res.bind_eq_ok.1 h
  cases h
  refine ⟨ee, he, ?_⟩
  obtain ⟨wh, h1, h2, -, h3⟩ := width_layout handle.toNat_lt
  obtain ⟨wo, f1, -, -, -⟩ := width_layout offset.toNat_lt
  refine ⟨wh, wo, h1, f1, ?_⟩
  have hw : wh = 0 := by
    refine Nat.eq_zero_of_not_pos fun hw => ?_
    have := h1.2.2 0 hw
    simp at this; omega
  subst hw
  have hz : offset = 0 ↔ offset.toNat = 0 := by rw [← UInt64.toNat_inj]; rfl
  have hl : offset = entry.payloadLength ↔ offset.toNat = entry.payloadLength.toNat := by rw [← UInt64.toNat_inj]
  simp only [List.cons_append, List.nil_append, natBytes_cons, natBytes_append, h3, sendEntry_code, hh.2.1, hh.2.2.1, hh.2.2.2,
    if_false, List.append_assoc, ← hz, ← hl, if_pos ho]
  congr 1
  congr 1
  by_cases h0 : offset = 0
  · simp only [h0, if_true, ne_eq, not_true_eq_false, false_and, if_false]
    rfl
  · have h4 : offset = entry.payloadLength := ho.resolve_left h0
    simp only [h4] at h0 ⊢
    simp only [h0, if_true, ne_eq, not_true_eq_false, and_false, if_false]
    rfl

theorem bindReadCapability_layout (s : Schemes) (capability : Bytes) (handle : UInt64) (signature : Bytes)
    (hb : handle.toNat < 2 ^ s.p.bits) : BindReadCapabilityLayout handle.toNat (natBytes (s.readCap.enc capability))
      (natBytes (s.syncSig.enc signature)) (natBytes (encodeSetupBindReadCapability s capability handle signature)) := by
  obtain ⟨w, h1, h2, -, h3⟩ := width_layout handle.toNat_lt
  refine ⟨w, h1, ?_⟩
  unfold encodeSetupBindReadCapability
  simp only [conv_small hb, List.cons_append, List.nil_append, natBytes_cons, natBytes_append, h3, h2, List.append_assoc]
  congr 1
  rcases widthCode_cases h1 with rfl | rfl | rfl | rfl <;> rfl

theorem bindAreaOfInterest_layout (s : Schemes) (outer : Area) (aoi : AreaOfInterest) (handle : UInt64) (enc : Bytes)
    (hb : handle.toNat < 2 ^ s.p.bits) (hc : aoi.maxCount = 0) (hs : aoi.maxSize = 0)
    (h : encodeSetupBindAreaOfInterest s outer aoi handle = .ok enc) : ∃ ea, encodeAreaInArea s.ss s.ordS s.p aoi.area outer = .ok ea ∧
    BindAreaOfInterestLayout handle.toNat aoi.maxCount.toNat aoi.maxSize.toNat (natBytes ea) (natBytes enc) := by
  unfold encodeSetupBindAreaOfInterest at h
  obtain ⟨ea, he, h⟩ := Res.bind_eq_ok.1 h
  rw [if_pos ⟨hc, hs⟩] at h
  cases h
  refine ⟨ea, he, ?_⟩
  obtain ⟨w, h1, h2, -, h3⟩ := width_layout handle.toNat_lt
  refine ⟨w, 0, 0, h1, by rw [hc]; exact ⟨by decide, by decide, by simp⟩, by rw [hs]; exact ⟨by decide, by decide, by simp⟩, ?_⟩
  simp only [hc, hs, conv_small hb, List.cons_append, List.nil_append, natBytes_cons, natBytes_append, h3, h2, List.append_assoc]
  simp only [UInt64.toNat_zero, and_self, if_true, List.append_nil]
  congr 1
  rcases widthCode_cases h1 with rfl | rfl | rfl | rfl <;> rfl

/-- With a limit the flag is never set. -/
theorem bindAreaOfInterest_unlike (s : Schemes) (outer : Area) (aoi : AreaOfInterest) (handle : UInt64) (enc : Bytes) (n : Nat) (area : List Nat)
    (hl : aoi.maxCount ≠ 0 ∨ aoi.maxSize ≠ 0) (h : encodeSetupBindAreaOfInterest s outer aoi handle = .ok enc) :
    ¬ BindAreaOfInterestLayout n aoi.maxCount.toNat aoi.maxSize.toNat area (natBytes enc) := by
  rintro ⟨wh, wc, ws, h1, -, -, hout⟩
  unfold encodeSetupBindAreaOfInterest at h
  obtain ⟨ea, he, h⟩ := Res.bind_eq_ok.1 h
  have hz : ∀ x : UInt64, x = 0 ↔ x.toNat = 0 := fun x => by rw [← UInt64.toNat_inj]; rfl
  have hl' : aoi.maxCount.toNat ≠ 0 ∨ aoi.maxSize.toNat ≠ 0 := by rwa [ne_eq, ne_eq, ← hz, ← hz]
  rw [if_neg (fun hh => hl.elim (fun h => h hh.1) (fun h => h hh.2))] at h
  cases h
  simp only [List.cons_append, List.nil_append, natBytes_cons, List.cons.injEq, List.append_assoc] at hout
  have hf := hout.1
  rw [bit_true hl'] at hf
  have hw := width64 (s.p.conv handle.toNat)
  generalize getWidthMax64Int (s.p.conv handle.toNat) = g at hf hw
  have hle := h1.1
  simp only [packed, List.map, List.sum_cons, List.sum_nil] at hf
  split at hf <;> rcases hw with rfl | rfl | rfl | rfl <;> simp [compactWidthOr, compactWidthEndMask, byteOf] at hf <;> omega

theorem bindStaticToken_layout (s : Schemes) (token : Bytes) :
    BindStaticTokenLayout (natBytes (s.staticToken.enc token)) (natBytes (encodeSetupBindStaticToken s token)) := rfl

theorem bindFragment_layout (s : Schemes) (member : Bytes) (secondary : Bool) :
    BindFragmentLayout secondary (natBytes (s.groupMember.enc member)) (natBytes (encodePaiBindFragment s member secondary)) := by
  cases secondary <;> rfl

/-- The messages about a fragment. -/
theorem aboutFragment_layout {kind : Nat} {a b c d : UInt8} (hk : a.toNat = 4 * kind ∧ b.toNat = 4 * kind + 1 ∧ c.toNat = 4 * kind + 2 ∧
    d.toNat = 4 * kind + 3) (handle : UInt64) (rest : Bytes) : AboutFragmentLayout kind handle.toNat (natBytes rest)
    (natBytes ([widthHeader (getWidthMax64Int handle.toNat) a b c d] ++ [byteOf (getWidthMax64Int handle.toNat)] ++ rest)) ↔
    handle = 1 := by
  obtain ⟨w, h1, h2, -, h3⟩ := width_layout handle.toNat_lt
  have ho : handle = 1 ↔ handle.toNat = 1 := by rw [← UInt64.toNat_inj]; rfl
  rw [ho]
  simp only [List.cons_append, List.nil_append, natBytes_cons, h2]
  constructor
  · rintro ⟨w', h1', h⟩
    obtain rfl := widthCode_unique h1 h1'
    have hlen := congrArg List.length h
    simp only [List.length_cons, List.length_append, inBytes, List.length_map, List.length_range] at hlen
    rcases widthCode_cases h1 with rfl | rfl | rfl | rfl
    · have := h1.2.1
      simp [inBytes, byteOf] at h this
      omega
    · omega
    · omega
    · omega
  · intro h
    refine ⟨w, h1, ?_⟩
    have : w = 0 := by
      refine Nat.eq_zero_of_not_pos fun hw => ?_
      have := h1.2.2 0 hw
      simp at this; omega
    subst this
    rw [h]
    simp only [widthHeader, Nat.pow_zero, if_true, hk.1, packed, List.map, List.sum_cons, List.sum_nil]
    congr 1
    omega

theorem sendFingerprint_layout (s : Schemes) (privy : Privy) (range : Range3d) (fingerprint : Bytes)
    (sender receiver covers : UInt64) (enc : Bytes) (hs : sender.toNat < 2 ^ s.p.bits) (hr : receiver.toNat < 2 ^ s.p.bits)
    (hc : covers.toNat < 2 ^ s.p.bits)
    (hw : sender = privy.prevSenderHandle ∧ receiver = privy.prevReceiverHandle ∨
      ∀ w, WidthCode sender.toNat w ↔ WidthCode receiver.toNat w)
    (h : encodeReconciliationSendFingerprint s privy range fingerprint sender receiver covers = .ok enc) :
    ∃ er, encodeRange3dRelative s.ss s.ordS s.p range privy.prevRange = .ok er ∧
    SendFingerprintLayout (fingerprint = s.neutral) (sender = privy.prevSenderHandle) (receiver = privy.prevReceiverHandle)
      sender.toNat receiver.toNat covers.toNat (natBytes (s.fingerprint.enc fingerprint)) (natBytes er) (natBytes enc) := by
  unfold encodeReconciliationSendFingerprint at h
  dsimp only at h
  obtain ⟨er, he, h⟩ := Res.bind_eq_ok.1 h
  cases h
  refine ⟨er, he, ?_⟩
  obtain ⟨ws, h1, h2, -, h3⟩ := width_layout sender.toNat_lt
  obtain ⟨wr, f1, f2, -, f3⟩ := width_layout receiver.toNat_lt
  obtain ⟨wc, g1, g2, -, g3⟩ := width_layout covers.toNat_lt
  refine ⟨ws, wr, wc, h1, f1, g1, ?_⟩
  have hone : covers = 1 ↔ covers.toNat = 1 := by rw [← UInt64.toNat_inj]; rfl
  simp only [conv_small hs, conv_small hr, conv_small hc, List.cons_append, List.nil_append, natBytes_cons, natBytes_append, h2, f2, g2,
    List.append_assoc, ← hone]
  have e1 : (natBytes (if covers = 1 then [] else encodeIntMax64 covers.toNat)) = if covers = 1 then [] else inBytes (2 ^ wc) covers.toNat := by
    split
    · rfl
    · exact g3
  have e2 : (natBytes (if sender == privy.prevSenderHandle then [] else encodeIntMax64 sender.toNat)) =
      if sender = privy.prevSenderHandle then [] else inBytes (2 ^ ws) sender.toNat := by
    by_cases hh : sender = privy.prevSenderHandle
    · simp [hh, natBytes]
    · simp only [hh, if_false, beq_iff_eq]; exact h3
  have e3 : (natBytes (if receiver == privy.prevReceiverHandle then [] else encodeIntMax64 receiver.toNat)) =
      if receiver = privy.prevReceiverHandle then [] else inBytes (2 ^ wr) receiver.toNat := by
    by_cases hh : receiver = privy.prevReceiverHandle
    · simp [hh, natBytes]
    · simp only [hh, if_false, beq_iff_eq]; exact f3
  have e4 : (natBytes (if fingerprint == s.neutral then [] else s.fingerprint.enc fingerprint)) =
      if fingerprint = s.neutral then [] else natBytes (s.fingerprint.enc fingerprint) := by
    by_cases hh : fingerprint = s.neutral
    · simp [hh, natBytes]
    · simp only [hh, if_false, beq_iff_eq]
  rw [e1, e2, e3, e4]
  congr 1
  · by_cases c1 : fingerprint = s.neutral <;> by_cases c2 : sender = privy.prevSenderHandle <;>
      by_cases c3 : receiver = privy.prevReceiverHandle <;> simp [c1, c2, c3, bit, packed]
  · congr 1
    have hc' := widthCode_cases g1
    have hbit : bit (covers.toNat ≠ 1) = bit (covers ≠ 1) := by unfold bit; simp only [ne_eq, hone]
    rw [hbit]
    clear e1 e2 e3 e4 h2 f2 g2 h3 f3 g3 hone he hs hr hc hbit
    rcases hw with ⟨c2, c3⟩ | hw
    · simp only [c2, c3, beq_self_eq_true, Bool.not_true, Bool.false_eq_true, if_false, if_true]
      by_cases c4 : covers = 1
      · simp [c4, bit, packed]
      · simp only [c4, ne_eq, not_false_eq_true, if_true, if_false, bit]
        rcases hc' with rfl | rfl | rfl | rfl <;> rfl
    · obtain rfl : ws = wr := widthCode_unique ((hw _).1 h1) f1
      have hs' := widthCode_cases h1
      clear hw h1 f1 g1
      by_cases c4 : covers = 1 <;> by_cases c2 : sender = privy.prevSenderHandle <;>
      by_cases c3 : receiver = privy.prevReceiverHandle <;> simp only [c2, c3, c4, beq_self_eq_true, beq_iff_eq, Bool.not_true,
        Bool.not_eq_true', beq_eq_false_iff_ne, Bool.false_eq_true, if_false, if_true, ne_eq, not_false_eq_true, not_true_eq_false, bit] <;>
      rcases hc' with rfl | rfl | rfl | rfl <;> rcases hs' with rfl | rfl | rfl | rfl <;> rfl

theorem announceEntries_layout (s : Schemes) (privy : Privy) (range : Range3d) (count : UInt64) (want sort : Bool)
    (sender receiver covers : UInt64) (enc : Bytes) (hs : sender.toNat < 2 ^ s.p.bits) (hr : receiver.toNat < 2 ^ s.p.bits)
    (hn : count.toNat < 2 ^ s.p.bits) (hc : covers.toNat < 2 ^ s.p.bits)
    (h : encodeReconciliationAnnounceEntries s privy range count want sort sender receiver covers = .ok enc) :
    ∃ er, encodeRange3dRelative s.ss s.ordS s.p range privy.prevRange = .ok er ∧
    AnnounceEntriesLayout (want = true) (sort = true) (sender = privy.prevSenderHandle) (receiver = privy.prevReceiverHandle)
      sender.toNat receiver.toNat count.toNat covers.toNat (natBytes er) (natBytes enc) := by
  unfold encodeReconciliationAnnounceEntries at h
  dsimp only at h
  obtain ⟨er, he, h⟩ := Res.bind_eq_ok.1 h
  cases h
  refine ⟨er, he, ?_⟩
  obtain ⟨ws, h1, h2, -, h3⟩ := width_layout sender.toNat_lt
  obtain ⟨wr, f1, f2, -, f3⟩ := width_layout receiver.toNat_lt
  obtain ⟨wn, k1, k2, -, k3⟩ := width_layout count.toNat_lt
  obtain ⟨wc, g1, g2, -, g3⟩ := width_layout covers.toNat_lt
  refine ⟨ws, wr, wn, wc, h1, f1, k1, g1, ?_⟩
  have hone : covers = 1 ↔ covers.toNat = 1 := by rw [← UInt64.toNat_inj]; rfl
  simp only [conv_small hs, conv_small hr, conv_small hc, conv_small hn, List.cons_append, List.nil_append, natBytes_cons, natBytes_append,
    h2, f2, g2, k2, k3, List.append_assoc, ← hone]
  have hc' := widthCode_cases g1
  have e1 : (natBytes (if covers = 1 then [] else if covers ≥ 252 then byteOf (compactWidthOr 0xfc (2 ^ wc)) :: encodeIntMax64 covers.toNat
      else [byteOf covers.toNat])) =
      if covers = 1 then [] else if covers.toNat < 252 then [covers.toNat] else packed [(6, 63), (2, wc)] :: inBytes (2 ^ wc) covers.toNat := by
    split
    · rfl
    · have h252 : covers ≥ 252 ↔ ¬ covers.toNat < 252 := by
        rw [ge_iff_le, UInt64.le_iff_toNat_le, Nat.not_lt]; rfl
      by_cases hh : covers.toNat < 252
      · rw [if_neg (fun h => h252.1 h hh), if_pos hh]
        simp [natBytes, byteOf]; omega
      · rw [if_pos (h252.2 hh), if_neg hh, natBytes_cons, g3]
        congr 1
        rcases hc' with rfl | rfl | rfl | rfl <;> rfl
  have e2 : (natBytes (if (!(sender == privy.prevSenderHandle)) = true then encodeIntMax64 sender.toNat else [])) =
      if sender = privy.prevSenderHandle then [] else inBytes (2 ^ ws) sender.toNat := by
    by_cases hh : sender = privy.prevSenderHandle
    · simp [hh, natBytes]
    · simp [hh, h3]
  have e3 : (natBytes (if (!(receiver == privy.prevReceiverHandle)) = true then encodeIntMax64 receiver.toNat else [])) =
      if receiver = privy.prevReceiverHandle then [] else inBytes (2 ^ wr) receiver.toNat := by
    by_cases hh : receiver = privy.prevReceiverHandle
    · simp [hh, natBytes]
    · simp [hh, f3]
  rw [e1, e2, e3]
  congr 1
  · by_cases c2 : sender = privy.prevSenderHandle <;>
      by_cases c3 : receiver = privy.prevReceiverHandle <;> cases want <;> simp [c2, c3, bit, packed]
  · congr 1
    have hs' := widthCode_cases h1
    have hr' := widthCode_cases f1
    have hn' := widthCode_cases k1
    have hbit : bit (covers.toNat ≠ 1) = bit (covers ≠ 1) := by unfold bit; simp only [ne_eq, hone]
    rw [hbit]
    clear e1 e2 e3 h2 f2 g2 k2 h3 f3 g3 k3 hone he hs hr hc hn h1 f1 g1 k1 hc' hbit
    have hb : ∀ (a b : Bool) (covers1 : Bool), ((if (!a && !b) = true then
        byteOf (compactWidthOr (byteOf (compactWidthOr 0x0 (2 ^ ws)) <<< 2).toNat (2 ^ wr)) <<< 4
      else if (!a && b) = true then byteOf (compactWidthOr 0x0 (2 ^ ws)) <<< 6
      else if (a && !b) = true then byteOf (compactWidthOr 0x0 (2 ^ wr)) <<< 4
      else 0x0) ||| (byteOf (compactWidthOr 0 (2 ^ wn)) <<< 2) ||| (if sort = true then 0x2 else 0x0) |||
        (if covers1 = false then 0x1 else 0x0) : UInt8).toNat =
      packed [(2, if a = true then 0 else ws), (2, if b = true then 0 else wr), (2, wn), (1, bit (sort = true)),
        (1, bit (covers1 = false))] := by
      intro a b c
      rcases hs' with rfl | rfl | rfl | rfl <;> rcases hr' with rfl | rfl | rfl | rfl <;>
        rcases hn' with rfl | rfl | rfl | rfl <;> cases a <;> cases b <;> cases c <;> cases sort <;> rfl
    have := hb (sender == privy.prevSenderHandle) (receiver == privy.prevReceiverHandle) (covers == 1)
    simp only [beq_iff_eq, beq_eq_false_iff_ne, bit] at this ⊢
    exact this

theorem sendAnnounced_layout (s : Schemes) (privy : Privy) (entry : Entry) (available handle : UInt64) (token enc : Bytes)
    (ha : available.toNat < 2 ^ s.p.bits) (hh : handle.toNat < 2 ^ s.p.bits) (h63 : handle = 63 → handle = privy.prevStaticTokenHandle)
    (h : encodeReconciliationSendEntry s privy entry available handle token = .ok enc) :
    ∃ ee, encodeEntryRelativeEntry s.ns s.ss s.pd s.eqNs s.ordS s.p entry privy.prevEntry = .ok ee ∧
    SendAnnouncedLayout (handle = privy.prevStaticTokenHandle) available.toNat handle.toNat (natBytes (s.dynamicToken.enc token))
      (natBytes ee) (natBytes enc) := by
  unfold encodeReconciliationSendEntry at h
  dsimp only at h
  obtain ⟨ee, he, h⟩ := Res.bind_eq_ok.1 h
  cases h
  refine ⟨ee, he, ?_⟩
  obtain ⟨wa, h1, h2, -, h3⟩ := width_layout available.toNat_lt
  obtain ⟨wh, f1, f2, -, f3⟩ := width_layout handle.toNat_lt
  refine ⟨wa, wh, h1, f1, ?_⟩
  simp only [conv_small ha, conv_small hh, List.cons_append, List.nil_append, natBytes_cons, natBytes_append, h2, f2, h3, List.append_assoc]
  have hw := widthCode_cases h1
  have hw' := widthCode_cases f1
  congr 1
  · by_cases c : handle = privy.prevStaticTokenHandle <;> simp only [c, beq_self_eq_true, beq_iff_eq, if_true, if_false, bit] <;>
      rcases hw with rfl | rfl | rfl | rfl <;> rfl
  · rw [← List.append_assoc]
    congr 1
    by_cases c : handle = privy.prevStaticTokenHandle
    · simp [c, natBytes]
    · have hne : handle.toNat ≠ 63 := fun hc => c (h63 (UInt64.toNat_inj.1 hc))
      have hlt : handle < 63 ↔ handle.toNat < 63 := by rw [UInt64.lt_iff_toNat_lt]; rfl
      have hgt : handle > 63 ↔ 63 < handle.toNat := by rw [gt_iff_lt, UInt64.lt_iff_toNat_lt]; rfl
      by_cases c2 : handle.toNat < 63
      · have : ¬ 63 < handle.toNat := by omega
        simp [c, hlt, hgt, c2, this, natBytes, byteOf]; omega
      · have : 63 < handle.toNat := by omega
        simp [c, hlt, hgt, c2, this, f3, natBytes_cons, natBytes_nil]
        rcases hw' with rfl | rfl | rfl | rfl <;> rfl

theorem sendPart_layout (s : Schemes) (amount : UInt64) (payload : Bytes) (ha : amount.toNat < 2 ^ s.p.bits) :
    SendPartLayout amount.toNat (natBytes payload) (natBytes (encodeReconciliationSendPayload s amount payload)) := by
  obtain ⟨w, h1, h2, -, h3⟩ := width_layout amount.toNat_lt
  refine ⟨w, h1, ?_⟩
  unfold encodeReconciliationSendPayload
  simp only [conv_small ha, List.cons_append, List.nil_append, natBytes_cons, natBytes_append, h3, h2]
  congr 1
  rcases widthCode_cases h1 with rfl | rfl | rfl | rfl <;> rfl

theorem inBytes_length (k n : Nat) : (inBytes k n).length = k := by simp [inBytes]

/-- Handles whose width the encoder gets wrong. -/
theorem sendEntry_unlike_handle (s : Schemes) (current entry : Entry) (handle : UInt64) (token : Bytes) (offset : UInt64) (enc : Bytes)
    (hh : 256 ≤ handle.toNat ∨ handle.toNat = 2 ∨ handle.toNat = 4 ∨ handle.toNat = 8)
    (h : encodeDataSendEntry s current entry handle token offset = .ok enc) (length o : Nat) (t e : List Nat) :
    ¬ SendEntryLayout length handle.toNat o t e (natBytes enc) := by
  unfold encodeDataSendEntry at h
  obtain ⟨ee, he, h⟩ := Res.bind_eq_ok.1 h
  cases h
  rintro ⟨wh, wo, h1, -, hout⟩
  simp only [List.cons_append, List.nil_append, natBytes_cons, List.cons.injEq, sendEntry_code] at hout
  have hf := hout.1
  simp only [packed, List.map, List.sum_cons, List.sum_nil] at hf
  have hle := h1.2.1
  rcases hh with hh | hh | hh | hh
  · rw [if_neg (by omega), if_neg (by omega), if_neg (by omega)] at hf
    simp [byteOf] at hf
    subst hf
    simp at hle; omega
  all_goals
    rw [hh] at h1 hf
    obtain rfl := widthCode_unique h1 (⟨by decide, by decide, by simp⟩ : WidthCode _ 0)
    simp [byteOf] at hf

/-- Offsets that are announced but not written. -/
theorem sendEntry_unlike_offset (s : Schemes) (current entry : Entry) (handle : UInt64) (token : Bytes) (offset : UInt64) (enc ee : Bytes)
    (ho : offset ≠ 0 ∧ offset ≠ entry.payloadLength)
    (h : encodeDataSendEntry s current entry handle token offset = .ok enc)
    (hee : encodeEntryRelativeEntry s.ns s.ss s.pd s.eqNs s.ordS s.p entry current = .ok ee) :
    ¬ SendEntryLayout entry.payloadLength.toNat handle.toNat offset.toNat (natBytes (s.dynamicToken.enc token)) (natBytes ee)
      (natBytes enc) := by
  unfold encodeDataSendEntry at h
  rw [hee] at h
  cases h
  rintro ⟨wh, wo, h1, f1, hout⟩
  obtain ⟨wh', h1', -, -, h3⟩ := width_layout handle.toNat_lt
  obtain rfl := widthCode_unique h1 h1'
  have hz : offset = 0 ↔ offset.toNat = 0 := by rw [← UInt64.toNat_inj]; rfl
  have hl : offset = entry.payloadLength ↔ offset.toNat = entry.payloadLength.toNat := by rw [← UInt64.toNat_inj]
  have hlen := congrArg List.length hout
  have hn : ¬ (offset.toNat = 0 ∨ offset.toNat = entry.payloadLength.toNat) := by
    rw [← hz, ← hl]; exact fun h => h.elim ho.1 ho.2
  simp only [hn, if_false, List.cons_append, List.nil_append, natBytes_cons, natBytes_append, h3, List.length_cons, List.length_append,
    inBytes_length] at hlen
  have := Nat.two_pow_pos wo
  omega

theorem sendFingerprint_unlike (s : Schemes) (privy : Privy) (range : Range3d) (fingerprint : Bytes)
    (sender receiver covers : UInt64) (enc : Bytes) (hs : sender.toNat < 2 ^ s.p.bits) (hr : receiver.toNat < 2 ^ s.p.bits)
    (hw : sender ≠ privy.prevSenderHandle ∨ receiver ≠ privy.prevReceiverHandle)
    (hd : ∀ w, ¬ (WidthCode sender.toNat w ∧ WidthCode receiver.toNat w))
    (h : encodeReconciliationSendFingerprint s privy range fingerprint sender receiver covers = .ok enc)
    (neutral : Prop) [Decidable neutral] (c : Nat) (f r : List Nat) :
    ¬ SendFingerprintLayout neutral (sender = privy.prevSenderHandle) (receiver = privy.prevReceiverHandle)
      sender.toNat receiver.toNat c f r (natBytes enc) := by
  unfold encodeReconciliationSendFingerprint at h
  dsimp only at h
  obtain ⟨er, he, h⟩ := Res.bind_eq_ok.1 h
  cases h
  rintro ⟨ws, wr, wc, h1, f1, g1, hout⟩
  obtain ⟨ws', h1', h2, -, -⟩ := width_layout sender.toNat_lt
  obtain ⟨wr', f1', f2, -, -⟩ := width_layout receiver.toNat_lt
  obtain rfl := widthCode_unique h1 h1'
  obtain rfl := widthCode_unique f1 f1'
  have hne : ws ≠ wr := fun hh => hd ws ⟨h1, hh ▸ f1⟩
  simp only [conv_small hs, conv_small hr, List.cons_append, List.nil_append, natBytes_cons, List.cons.injEq, h2, f2] at hout
  have hf := hout.2.1
  have key : ∀ (a b d : Bool) (k m n : Nat), (a = false ∨ b = false) → (k = 0 ∨ k = 1 ∨ k = 2 ∨ k = 3) → m ≤ 1 → n ≤ 3 →
      (let l : UInt8 := if (!a) = true then (0 : UInt8) ||| byteOf (compactWidthOr 0 (2 ^ wr) <<< 6) else 0
       let l := if (!b) = true then l ||| byteOf (compactWidthOr 0 (2 ^ ws) <<< 4) else l
       if d = true then byteOf (compactWidthOr (l ||| 8).toNat (2 ^ k)) else l).toNat =
      packed [(2, if a = true then 0 else ws), (2, if b = true then 0 else wr), (1, m), (1, 0), (2, n)] → False := by
    intro a b d k m n hab hk hm hn
    have hm' : m = 0 ∨ m = 1 := by omega
    have hn' : n = 0 ∨ n = 1 ∨ n = 2 ∨ n = 3 := by omega
    have h1 := widthCode_cases h1
    have f1 := widthCode_cases f1
    clear hout hf g1 h1' f1' h2 f2 he hd
    cases a <;> cases b <;> first | (rcases hab with h | h <;> cases h; done) | skip
    all_goals
      rcases h1 with rfl | rfl | rfl | rfl <;> rcases f1 with rfl | rfl | rfl | rfl <;> first | exact absurd rfl hne | skip
    all_goals
      rcases hk with rfl | rfl | rfl | rfl <;> cases d <;> rcases hm' with rfl | rfl <;>
        rcases hn' with rfl | rfl | rfl | rfl <;> exact fun h => absurd h (by decide)
  have hk := width64 (s.p.conv covers.toNat)
  have : ∃ k, (k = 0 ∨ k = 1 ∨ k = 2 ∨ k = 3) ∧ getWidthMax64Int (s.p.conv covers.toNat) = 2 ^ k := by
    rcases hk with h | h | h | h
    · exact ⟨0, by simp, h⟩
    · exact ⟨1, by simp, h⟩
    · exact ⟨2, by simp, h⟩
    · exact ⟨3, by simp, h⟩
  obtain ⟨k, hk, hk'⟩ := this
  rw [hk'] at hf
  refine key (sender == privy.prevSenderHandle) (receiver == privy.prevReceiverHandle) (covers != 1) k (bit (c ≠ 1))
    (if c = 1 then 0 else wc) (by simpa using hw) hk (by unfold bit; split <;> omega) (by have := g1.1; split <;> omega) ?_
  simp only [beq_iff_eq, bne_iff_ne] at hf ⊢
  exact hf

theorem sendAnnounced_unlike (s : Schemes) (privy : Privy) (entry : Entry) (available : UInt64) (token enc ee : Bytes)
    (ha : available.toNat < 2 ^ s.p.bits) (h63 : privy.prevStaticTokenHandle ≠ 63)
    (h : encodeReconciliationSendEntry s privy entry available 63 token = .ok enc)
    (hee : encodeEntryRelativeEntry s.ns s.ss s.pd s.eqNs s.ordS s.p entry privy.prevEntry = .ok ee) :
    ¬ SendAnnouncedLayout ((63 : UInt64) = privy.prevStaticTokenHandle) available.toNat (63 : UInt64).toNat
      (natBytes (s.dynamicToken.enc token)) (natBytes ee) (natBytes enc) := by
  unfold encodeReconciliationSendEntry at h
  dsimp only at h
  rw [hee] at h
  cases h
  rintro ⟨wa, wh, h1, f1, hout⟩
  obtain ⟨wa', h1', h2, -, h3⟩ := width_layout available.toNat_lt
  obtain rfl := widthCode_unique h1 h1'
  have hlen := congrArg List.length hout
  have hne : ¬ (63 : UInt64) = privy.prevStaticTokenHandle := fun h => h63 h.symm
  have hb : ((63 : UInt64) == privy.prevStaticTokenHandle) = false := by simpa using hne
  have h63' : (63 : UInt64).toNat = 63 := rfl
  have hlt : ¬ (63 : UInt64) < 63 := by decide
  simp only [conv_small ha, hb, hne, h63', hlt, List.cons_append, List.nil_append, natBytes_cons, natBytes_append, h3, List.length_cons,
    List.length_append, inBytes_length, if_false, Bool.false_eq_true, Nat.lt_irrefl, gt_iff_lt, and_false, natBytes_nil, List.length_nil] at hlen
  have := Nat.two_pow_pos wh
  omega

/-- Numbers that do not fit the type of the path limits are cut. -/
theorem bindReadCapability_unlike (s : Schemes) (capability : Bytes) (handle : UInt64) (signature : Bytes)
    (hb : 2 ^ s.p.bits ≤ handle.toNat) (c g : List Nat) :
    ¬ BindReadCapabilityLayout handle.toNat c g (natBytes (encodeSetupBindReadCapability s capability handle signature)) := by
  rintro ⟨w, h1, hout⟩
  have hlt : s.p.conv handle.toNat < 2 ^ 64 := Nat.lt_of_le_of_lt (Nat.mod_le _ _) handle.toNat_lt
  have hcut : s.p.conv handle.toNat < handle.toNat :=
    Nat.lt_of_lt_of_le (Nat.mod_lt _ (Nat.two_pow_pos _)) hb
  obtain ⟨w', h1', h2, -, h3⟩ := width_layout hlt
  unfold encodeSetupBindReadCapability at hout
  simp only [List.cons_append, List.nil_append, natBytes_cons, natBytes_append, h2, h3, List.cons.injEq, List.append_assoc] at hout
  have hw : w' = w := by
    have hf := hout.1
    rcases widthCode_cases h1 with rfl | rfl | rfl | rfl <;> rcases widthCode_cases h1' with rfl | rfl | rfl | rfl <;>
      first | rfl | (revert hf; decide)
  subst hw
  have := inBytes_inj h1'.2.1 h1.2.1 hout.2
  omega

end Willow.Props
