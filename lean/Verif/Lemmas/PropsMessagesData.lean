import Verif.Lemmas.Messages
import Verif.Props.Relative
import Verif.Spec.PropsMessagesData

/-! Lemmas for the theorems of `Verif/Props/MessagesData.lean`. -/

namespace Willow.Props

open Willow Spec

/-- The last two bits of a header that was combined with a width. -/
theorem width_compactWidthOr {n : Nat} {base : Nat} {b : Nat} (hn : getWidthMax64Int n = b)
    (h : ∀ w, Width w → compactWidthFromEndOfByte (byteOf (compactWidthOr base w)) = w) :
    compactWidthFromEndOfByte (byteOf (compactWidthOr base b)) = b := hn ▸ h _ (width64 n)

/-- The widths of an amount in the header of a send-payload message. -/
theorem width_sendPayload (n : Nat) :
    compactWidthFromEndOfByte (byteOf (compactWidthOr 0x64 (getWidthMax64Int n))) = getWidthMax64Int n := by
  rcases width64 n with h | h | h | h <;> rw [h] <;> decide

/-- When the whole of the stream has arrived, a send-payload message comes back, and as many
bytes again as its encoding has are dropped from the stream. -/
theorem sendPayload_arrived {amount : UInt64} {bytes : Bytes} (ha : amount.toNat = bytes.length)
    (hb : bytes.length < 2 ^ 63) {g : GB} {rest : Bytes} (hr : g.rest = [])
    (hg : g.content = encodeDataSendPayload amount bytes ++ rest) :
    Gives (message (.dataSendPayload amount bytes)) (rest.drop (encodeDataSendPayload amount bytes).length)
      (decodeDataSendPayload g) := by
  have hl := encodeIntMax64_length amount.toNat
  have hw := width_sendPayload amount.toNat
  have hlen : (encodeDataSendPayload amount bytes).length = 1 + getWidthMax64Int amount.toNat + bytes.length := by
    simp [encodeDataSendPayload]; omega
  rw [hlen]
  unfold encodeDataSendPayload at hg
  generalize byteOf _ = b at hw hg
  suffices h : GivesR true (message (.dataSendPayload amount bytes))
      (rest.drop (1 + getWidthMax64Int amount.toNat + bytes.length)) (decodeDataSendPayload g) by
    obtain ⟨g', h1, -, h2⟩ := h
    exact ⟨g', h1, h2⟩
  unfold decodeDataSendPayload
  refine step_next (ready_of_nil hr) hg (by simp) fun g1 r1 c1 l1 _ => ?_
  rw [step_byte (b := b) c1 (by omega) rfl, hw]
  refine step_next r1 c1 (by simp; omega) fun g2 r2 c2 l2 e2 => ?_
  have e2 := e2 rfl
  rw [step_compact (i := 1) (x := amount) (a := [b]) (b := bytes ++ rest) c2 (by simp) rfl rfl l2]
  rw [if_neg (by omega), ha]
  have hlb : 1 + getWidthMax64Int bytes.length + bytes.length ≤ g2.buf.length := by
    rw [e2]; simp only [List.length_append, List.length_cons, List.length_nil]; rw [ha] at hl ⊢; omega
  rw [ha] at hl c2 e2 l2
  have hs : slice g2.buf (1 + getWidthMax64Int bytes.length) (1 + getWidthMax64Int bytes.length + bytes.length) = .ok bytes := by
    rw [e2]
    have := slice_mid_append ([b] ++ encodeIntMax64 bytes.length) bytes rest
      (i := 1 + getWidthMax64Int bytes.length) (j := 1 + getWidthMax64Int bytes.length + bytes.length)
      (by simp; omega) rfl
    simpa using this
  have hf : g2.rest.flatten = [] := by
    have := c2
    rw [← e2] at this
    simpa [GB.content] using this
  simp only [Dec.bind_apply, prune_apply, sliceArray_ok hs, Dec.pure_apply]
  refine ⟨_, rfl, ready_prune _ (ready_prune _ r2), ?_⟩
  simp only [GB.content, GB.pruned_buf, GB.pruned_rest, hf, List.append_nil, e2]
  rw [List.drop_left' (by simp; omega)]

/-- The entry at the end of a message. -/
theorem entry_reads {s : Schemes} {vn vs vp vt : Bytes → Prop} (hL : LawfulSchemes s vn vs vp vt) {e ref : Entry}
    (hv : ValidEntry s vn vs vp e) {enc : Bytes}
    (h : encodeEntryRelativeEntry s.ns s.ss s.pd s.eqNs s.ordS s.p e ref = .ok enc) {all : Bool} {g : GB} {rest : Bytes}
    (hr : g.ready all) (hg : g.content = enc ++ rest)
    (ha : all = true ∨ ∀ c ∈ e.path, c.length ≤ getWidthMax32Int s.p.cl)
    (hs : getWidthMax32Int s.p.cl ≤ 2 + (s.pd.enc e.payloadDigest).length + rest.length) :
    GivesR all e rest (decodeStreamEntryRelativeEntry s.ns s.ss s.pd s.p ref g) :=
  (decodes_entryRelativeEntry hL.ns hL.ss hL.pd hL.eqNs hL.ordS hv.ns hv.ss hv.path hv.digest h all).2
    (PathArrives.rel ha _) g rest hr hg (by omega)

/-- The second byte of a bind-payload-request message. -/
theorem secondByte_bind (offset : UInt64) (b : UInt8)
    (hb : b = byteOf ((if offset ≠ 0 then 0x80 else 0x0) |||
      (if offset = 0 then 0x0 else compactWidthOr 0x0 (getWidthMax64Int offset.toNat) <<< 5) ||| 0x10)) :
    (b &&& 0x80 == 0x80) = decide (offset ≠ 0) ∧ (b &&& 0x10 == 0x10) = true ∧
    (offset ≠ 0 → compactWidthFromEndOfByte ((b &&& 0x60) >>> 5) = getWidthMax64Int offset.toNat) := by
  subst hb
  by_cases h : offset = 0
  · subst h
    refine ⟨by decide, by decide, fun h => absurd rfl h⟩
  · rw [if_pos h, if_neg h, decide_eq_true h]
    rcases width64 offset.toNat with k | k | k | k <;> rw [k] <;> exact ⟨by decide, by decide, fun _ => by decide⟩

/-- Bind-payload-request messages, with the condition on the arrival of the bytes. -/
theorem bindPayloadRequest_reads {s : Schemes} {vn vs vp vt : Bytes → Prop} (hL : LawfulSchemes s vn vs vp vt)
    (aois : AoiLookup) {e current : Entry} (hv : ValidEntry s vn vs vp e) {offset capability : UInt64} {enc : Bytes}
    (h : encodeDataBindPayloadRequest s current e offset capability = .ok enc) {all : Bool} {g : GB} {rest : Bytes}
    (hr : g.ready all) (hg : g.content = enc ++ rest) (ho : all = true ∨ offset = 0)
    (ha : all = true ∨ ∀ c ∈ e.path, c.length ≤ getWidthMax32Int s.p.cl)
    (hs : getWidthMax32Int s.p.cl ≤ 2 + (s.pd.enc e.payloadDigest).length + rest.length) :
    GivesR all (message (.dataBindPayloadRequest e offset capability)) rest (decodeDataBindPayloadRequest s aois current g) := by
  unfold encodeDataBindPayloadRequest at h
  dsimp only at h
  obtain ⟨ee, hee, h⟩ := Res.bind_eq_ok.1 h
  simp only [Res.ok.injEq] at h
  subst h
  have hw : compactWidthFromEndOfByte (byteOf (compactWidthOr 0x6c (getWidthMax64Int capability.toNat))) =
      getWidthMax64Int capability.toNat := by
    rcases width64 capability.toNat with h | h | h | h <;> rw [h] <;> decide
  obtain ⟨k1, k2, k3⟩ := secondByte_bind offset _ rfl
  generalize byteOf (compactWidthOr 0x6c _) = b1 at hw hg
  generalize byteOf _ = b2 at k1 k2 k3 hg
  have hl := encodeIntMax64_length capability.toNat
  have hlo := encodeIntMax64_length offset.toNat
  simp only [List.append_assoc] at hg
  unfold decodeDataBindPayloadRequest
  refine step_next hr hg (by simp) fun g1 r1 c1 l1 _ => ?_
  rw [step_byte (b := b1) c1 (by omega) rfl, step_byte (b := b2) c1 (by omega) rfl]
  simp only [hw, k1, k2, if_true]
  refine step_next r1 c1 (by simp; omega) fun g2 r2 c2 l2 e2 => ?_
  rw [step_compact (i := 2) (x := capability) (a := [b1, b2]) c2 rfl rfl rfl (by omega)]
  by_cases h0 : offset = 0
  · simp only [h0, ne_eq, not_true_eq_false, decide_false, Bool.false_eq_true, if_false, if_true, List.nil_append] at c2 ⊢
    rw [Dec.bind_assoc]
    refine step_prune (a := [b1, b2] ++ encodeIntMax64 capability.toNat) (b := ee ++ rest) r2 c2 (by omega) (by simp)
      (by simp; omega) fun g3 r3 c3 => ?_
    rw [Dec.pure_bind]
    refine step_dec (entry_reads hL hv hee r3 c3 ha hs) fun g4 r4 c4 => ?_
    exact step_pure r4 c4
  · have hall : all = true := ho.resolve_right h0
    simp only [h0, ne_eq, not_false_eq_true, decide_true, if_false, if_true] at c2 e2 ⊢
    have hb2 : 2 + getWidthMax64Int capability.toNat + getWidthMax64Int offset.toNat ≤ g2.buf.length := by
      rw [e2 hall]; simp; omega
    rw [k3 h0, Dec.bind_assoc]
    rw [step_compact (i := 2 + getWidthMax64Int capability.toNat) (x := offset)
      (a := [b1, b2] ++ encodeIntMax64 capability.toNat) (b := ee ++ rest) c2 (by simp) (by simp; omega) rfl hb2]
    rw [Dec.bind_assoc]
    refine step_prune (a := [b1, b2] ++ encodeIntMax64 capability.toNat ++ encodeIntMax64 offset.toNat) (b := ee ++ rest)
      r2 c2 hb2 (by simp) (by simp; omega) fun g3 r3 c3 => ?_
    rw [Dec.pure_bind]
    refine step_dec (entry_reads hL hv hee r3 c3 ha hs) fun g4 r4 c4 => ?_
    exact step_pure r4 c4

theorem exSchemes_lawful :
    LawfulSchemes exSchemes (·.length = 1) (·.length = 1) (·.length = 2) (·.length = 2) where
  ns := fixedCodec_lawful 1
  ss := fixedCodec_lawful 1
  pd := fixedCodec_lawful 2
  dynamicToken := fixedCodec_lawful 2
  eqNs := by simp [exSchemes]
  ordS := decides_subspace

theorem exEntry_valid : ValidEntry exSchemes (·.length = 1) (·.length = 1) (·.length = 2) exEntry where
  ns := by decide
  ss := by decide
  path := shortPath_of_limits (by decide) (by decide) ⟨by decide, by decide, by decide⟩
  digest := by decide

/-- The first byte of a send-entry message carries the right width of the handle exactly for the
handles below 256 other than 2, 4 and 8. -/
theorem firstByte_sendEntry (handle : UInt64) :
    compactWidthFromEndOfByte (byteOf (0x60 ||| compactWidthOr 0 (widthKey handle))) =
      if handle = 2 then 2 else if handle = 4 then 4 else if handle = 8 then 8 else 1 := by
  unfold widthKey compactWidthOr
  split
  · by_cases h2 : handle = 2
    · subst h2; decide
    by_cases h4 : handle = 4
    · subst h4; decide
    by_cases h8 : handle = 8
    · subst h8; decide
    rw [if_neg h2, if_neg h4, if_neg h8]
    have n2 : handle.toNat ≠ 2 := fun h => h2 (UInt64.toNat_inj.1 h)
    have n4 : handle.toNat ≠ 4 := fun h => h4 (UInt64.toNat_inj.1 h)
    have n8 : handle.toNat ≠ 8 := fun h => h8 (UInt64.toNat_inj.1 h)
    have : compactWidthEndMask handle.toNat = 0 := by
      unfold compactWidthEndMask
      grind
    rw [this]
    decide
  · have n2 : handle ≠ 2 := by rintro rfl; simp_all
    have n4 : handle ≠ 4 := by rintro rfl; simp_all
    have n8 : handle ≠ 8 := by rintro rfl; simp_all
    rw [if_neg n2, if_neg n4, if_neg n8]
    decide

end Willow.Props
