import Verif.Lemmas.MessagesArea

/-! Property C71: decoding data messages whose entry is encoded in an area. The encoders of the code never write this form. -/

namespace Willow.Props

open Willow Spec

/-- The two header bytes of a data message with an entry in an area: the width of the first handle;
the offset, given with its width or left out with a mark for the length of the payload; the widths
of the two handles that name the area. -/
def wireDataHeader (first : Nat) (handle sender receiver : UInt64) (offset : Option UInt64) (isLength : Bool) : Bytes :=
  [byteOf (first ||| compactWidthEndMask (getWidthMax64Int handle.toNat)),
    byteOf ((match offset with
      | some x => 0x80 ||| compactWidthEndMask (getWidthMax64Int x.toNat) <<< 5
      | none => if isLength then 0x20 else 0x0) |||
      compactWidthEndMask (getWidthMax64Int sender.toNat) <<< 2 ||| compactWidthEndMask (getWidthMax64Int receiver.toNat))]

/-- The bytes of an offset, if it is given. -/
def offsetBytes : Option UInt64 → Bytes
  | none => []
  | some x => encodeIntMax64 x.toNat

/-- An entry in an area as a peer may choose to write it: with or without the subspace, the time
from the start or the end. -/
structure EntryInArea (s : Schemes) (area : Area) (e : Entry) (bytes : Bytes) : Prop where
  choice : ∃ rel withSubspace fromStart timeDiff, bytes = wireEntryInArea s.ss s.pd e rel withSubspace fromStart timeDiff ∧
    encodeRelativePath s.p e.path area.path = .ok rel ∧ timeDiff < 2 ^ 64 ∧
    (withSubspace = true ∨ (area.anySubspace = false ∧ e.subspaceId = area.subspace)) ∧
    ((fromStart = true ∧ e.timestamp = area.times.start + UInt64.ofNat timeDiff) ∨
      (fromStart = false ∧ area.times.openEnd = false ∧ e.timestamp = area.times.stop - UInt64.ofNat timeDiff))

/-- C71, partial: a send-entry message whose entry a peer has encoded in the area that two handles
name is decoded to what it says, whatever the handles and the offset, once all of it has arrived.
Missing: no encoder of the code writes it, and parts of it may arrive late. -/
theorem C71_sendEntry_area_partial (s : Schemes) (vn vs vp vt : Bytes → Prop) (hL : LawfulSchemes s vn vs vp vt)
    (aois : AoiLookup) (e current : Entry) (hv : ValidEntry s vn vs vp e) (handle sender receiver : UInt64) (token : Bytes)
    (ht : vt token) (offset : Option UInt64) (isLength : Bool) (bytes : Bytes)
    (hns : aois.namespaceId sender receiver = e.namespaceId) (hb : EntryInArea s (aois.area sender receiver) e bytes)
    (g : GB) (rest : Bytes) (hr : g.rest = [])
    (hg : g.content = wireDataHeader 0x60 handle sender receiver offset isLength ++ encodeIntMax64 handle.toNat ++
      s.dynamicToken.enc token ++ offsetBytes offset ++ encodeIntMax64 sender.toNat ++ encodeIntMax64 receiver.toNat ++ bytes ++ rest)
    (hs : getWidthMax32Int s.p.cl ≤ 2 + (s.pd.enc e.payloadDigest).length + rest.length) :
    Gives (message (.dataSendEntry e handle token (offset.getD (if isLength then e.payloadLength else 0)))) rest
      (decodeDataSendEntry s aois current g) := by
  obtain ⟨rel, ws, fs, td, rfl, hrel, htd, hss, htime⟩ := hb
  suffices h : GivesR true (message (.dataSendEntry e handle token (offset.getD (if isLength then e.payloadLength else 0)))) rest
      (decodeDataSendEntry s aois current g) by
    obtain ⟨g', h3, -, h4⟩ := h
    exact ⟨g', h3, h4⟩
  have hrd : g.ready true := ready_of_nil hr
  obtain ⟨k1, k2, k3, k4, -, k5, k6, k7⟩ := header_dataEntry (.inl rfl) offset isLength (width64 handle.toNat) (width64 sender.toNat)
    (width64 receiver.toNat)
  unfold wireDataHeader at hg
  generalize byteOf (0x60 ||| _) = b1 at k1 hg
  generalize byteOf _ = b2 at k2 k3 k4 k5 k6 k7 hg
  have hl := encodeIntMax64_length handle.toNat
  simp only [List.append_assoc] at hg
  unfold decodeDataSendEntry
  refine step_next hrd hg (by simp) fun g1 r1 c1 l1 _ => ?_
  rw [step_byte (b := b1) c1 (by omega) rfl, step_byte (b := b2) c1 (by omega) rfl]
  simp only [k1, k2, k3, k4, k5, Bool.false_eq_true, if_false]
  refine step_prune (a := [b1, b2]) r1 c1 l1 rfl rfl fun g2 r2 c2 => ?_
  refine step_next r2 c2 (by simp; omega) fun g3 r3 c3 l3 _ => ?_
  rw [step_compact (i := 0) (x := handle) (a := []) c3 rfl rfl rfl (by omega)]
  refine step_prune (a := encodeIntMax64 handle.toNat) r3 c3 l3 rfl (by omega) fun g4 r4 c4 => ?_
  refine step_codec hL.dynamicToken ht r4 c4 fun g5 r5 c5 => ?_
  cases offset with
  | none =>
    simp only [Option.isSome_none, Bool.false_eq_true, if_false, Bool.not_false, Bool.true_and, if_true, k6 rfl]
    rw [Dec.pure_bind]
    refine step_dec (dataEntry_area hL hv hns hrel htd hss htime r5 c5 hs) fun g6 r6 c6 => ?_
    exact ⟨g6, rfl, r6, c6⟩
  | some x =>
    have hx := encodeIntMax64_length x.toNat
    simp only [Option.isSome_some, if_true, k7 x rfl]
    refine step_dec (a := x) (mid := encodeIntMax64 sender.toNat ++ (encodeIntMax64 receiver.toNat ++
      (wireEntryInArea s.ss s.pd e rel ws fs td ++ rest))) ?_ fun g6 r6 c6 => ?_
    · have c5' : g5.content = encodeIntMax64 x.toNat ++ (encodeIntMax64 sender.toNat ++ (encodeIntMax64 receiver.toNat ++
        (wireEntryInArea s.ss s.pd e rel ws fs td ++ rest))) := c5
      refine step_next r5 c5' (by simp; omega) fun g6 r6 c6 l6 _ => ?_
      rw [step_compact (i := 0) (x := x) (a := []) c6 rfl rfl rfl (by omega)]
      refine step_prune (a := encodeIntMax64 x.toNat) r6 c6 l6 rfl (by omega) fun g7 r7 c7 => ?_
      exact ⟨g7, rfl, r7, c7⟩
    · refine step_dec (dataEntry_area hL hv hns hrel htd hss htime r6 c6 hs) fun g7 r7 c7 => ?_
      exact ⟨g7, rfl, r7, c7⟩

/-- The area of one subspace and the paths below `[5, 6]`, whatever the handles. -/
def exInArea : AoiLookup := ⟨fun _ _ => ⟨[2], false, [[5, 6]], ⟨10, 70001, false⟩⟩, fun _ _ => exEntry.namespaceId⟩

/-- A handle of two bytes and an offset of four. -/
example : ∃ bytes, EntryInArea exSchemes (exInArea.area 3 400) exEntry bytes ∧
    (decodeDataSendEntry exSchemes exInArea exRef ⟨wireDataHeader 0x60 7 3 400 (some 70000) false ++ encodeIntMax64 7 ++
      [1, 2] ++ offsetBytes (some 70000) ++ encodeIntMax64 3 ++ encodeIntMax64 400 ++ bytes, [], [], .exact⟩).map' (·.1) =
      .ok (message (.dataSendEntry exEntry 7 [1, 2] 70000)) :=
  ⟨wireEntryInArea (fixedCodec 1) (fixedCodec 2) exEntry [1, 1, 1, 7] false false 1, ⟨[1, 1, 1, 7], false, false, 1, rfl, by decide +kernel, by decide, .inr (by decide +kernel), .inr (by decide +kernel)⟩,
    by decide +kernel⟩

/-- C71, partial: the same for a bind-payload-request message; here a missing offset is zero. -/
theorem C71_bindPayloadRequest_area_partial (s : Schemes) (vn vs vp vt : Bytes → Prop) (hL : LawfulSchemes s vn vs vp vt)
    (aois : AoiLookup) (e current : Entry) (hv : ValidEntry s vn vs vp e) (capability sender receiver : UInt64)
    (offset : Option UInt64) (isLength : Bool) (bytes : Bytes)
    (hns : aois.namespaceId sender receiver = e.namespaceId) (hb : EntryInArea s (aois.area sender receiver) e bytes)
    (g : GB) (rest : Bytes) (hr : g.rest = [])
    (hg : g.content = wireDataHeader 0x6c capability sender receiver offset isLength ++ encodeIntMax64 capability.toNat ++
      offsetBytes offset ++ encodeIntMax64 sender.toNat ++ encodeIntMax64 receiver.toNat ++ bytes ++ rest)
    (hs : getWidthMax32Int s.p.cl ≤ 2 + (s.pd.enc e.payloadDigest).length + rest.length) :
    Gives (message (.dataBindPayloadRequest e (offset.getD 0) capability)) rest
      (decodeDataBindPayloadRequest s aois current g) := by
  obtain ⟨rel, ws, fs, td, rfl, hrel, htd, hss, htime⟩ := hb
  suffices h : GivesR true (message (.dataBindPayloadRequest e (offset.getD 0) capability)) rest
      (decodeDataBindPayloadRequest s aois current g) by
    obtain ⟨g', h3, -, h4⟩ := h
    exact ⟨g', h3, h4⟩
  have hrd : g.ready true := ready_of_nil hr
  obtain ⟨k1, k2, k3, -, k4, k5, -, k7⟩ := header_dataEntry (.inr rfl) offset isLength (width64 capability.toNat)
    (width64 sender.toNat) (width64 receiver.toNat)
  unfold wireDataHeader at hg
  generalize byteOf (0x6c ||| _) = b1 at k1 hg
  generalize byteOf _ = b2 at k2 k3 k4 k5 k7 hg
  have hl := encodeIntMax64_length capability.toNat
  simp only [List.append_assoc] at hg
  unfold decodeDataBindPayloadRequest
  refine step_next hrd hg (by simp) fun g1 r1 c1 l1 _ => ?_
  rw [step_byte (b := b1) c1 (by omega) rfl, step_byte (b := b2) c1 (by omega) rfl]
  simp only [k1, k2, k3, k4, k5, Bool.false_eq_true, if_false]
  refine step_next r1 c1 (by simp; omega) fun g3 r3 c3 l3 b3 => ?_
  rw [step_compact (i := 2) (x := capability) (a := [b1, b2]) c3 rfl rfl rfl (by omega)]
  cases offset with
  | none =>
    simp only [Option.isSome_none, Bool.false_eq_true, if_false]
    refine step_dec (a := 0) (mid := encodeIntMax64 sender.toNat ++ (encodeIntMax64 receiver.toNat ++
      (wireEntryInArea s.ss s.pd e rel ws fs td ++ rest))) ?_ fun g6 r6 c6 => ?_
    · refine step_prune (a := [b1, b2] ++ encodeIntMax64 capability.toNat)
        (b := encodeIntMax64 sender.toNat ++ (encodeIntMax64 receiver.toNat ++ (wireEntryInArea s.ss s.pd e rel ws fs td ++ rest))) r3 c3 (by omega) (by simp [offsetBytes]) (by simp; omega)
        fun g7 r7 c7 => ?_
      exact ⟨g7, rfl, r7, c7⟩
    · refine step_dec (dataEntry_area hL hv hns hrel htd hss htime r6 c6 hs) fun g7 r7 c7 => ?_
      exact ⟨g7, rfl, r7, c7⟩
  | some x =>
    have hx := encodeIntMax64_length x.toNat
    have hlen : 2 + getWidthMax64Int capability.toNat + getWidthMax64Int x.toNat ≤ g3.buf.length := by
      rw [b3 rfl]; simp [offsetBytes]; omega
    simp only [Option.isSome_some, if_true, k7 x rfl]
    refine step_dec (a := x) (mid := encodeIntMax64 sender.toNat ++ (encodeIntMax64 receiver.toNat ++
      (wireEntryInArea s.ss s.pd e rel ws fs td ++ rest))) ?_ fun g6 r6 c6 => ?_
    · rw [step_compact (i := 2 + getWidthMax64Int capability.toNat) (x := x) (a := [b1, b2] ++ encodeIntMax64 capability.toNat)
        (b := encodeIntMax64 sender.toNat ++ (encodeIntMax64 receiver.toNat ++ (wireEntryInArea s.ss s.pd e rel ws fs td ++ rest)))
        c3 (by simp [offsetBytes]) (by simp; omega) rfl hlen]
      refine step_prune (a := [b1, b2] ++ encodeIntMax64 capability.toNat ++ encodeIntMax64 x.toNat)
        (b := encodeIntMax64 sender.toNat ++ (encodeIntMax64 receiver.toNat ++ (wireEntryInArea s.ss s.pd e rel ws fs td ++ rest))) r3 c3 hlen
        (by simp [offsetBytes]) (by simp; omega) fun g7 r7 c7 => ?_
      exact ⟨g7, rfl, r7, c7⟩
    · refine step_dec (dataEntry_area hL hv hns hrel htd hss htime r6 c6 hs) fun g7 r7 c7 => ?_
      exact ⟨g7, rfl, r7, c7⟩

example : ∃ bytes, EntryInArea exSchemes (exInArea.area 3 400) exEntry bytes ∧
    (decodeDataBindPayloadRequest exSchemes exInArea exRef ⟨wireDataHeader 0x6c 300 3 400 (some 70000) false ++ encodeIntMax64 300 ++
      offsetBytes (some 70000) ++ encodeIntMax64 3 ++ encodeIntMax64 400 ++ bytes, [], [], .exact⟩).map' (·.1) =
      .ok (message (.dataBindPayloadRequest exEntry 70000 300)) :=
  ⟨wireEntryInArea (fixedCodec 1) (fixedCodec 2) exEntry [1, 1, 1, 7] true true 69990, ⟨[1, 1, 1, 7], true, true, 69990, rfl, by decide +kernel, by decide, .inl rfl, .inl (by decide +kernel)⟩,
    by decide +kernel⟩

end Willow.Props
