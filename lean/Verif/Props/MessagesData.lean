import Verif.Lemmas.PropsMessagesData
import Verif.Lemmas.Messages
import Verif.Props.Relative

/-! Property C71: round trips of data messages. -/

namespace Willow.Props

open Willow Spec

/-- C71 for reply-payload messages. -/
theorem C71_replyPayload_partial (handle : UInt64) :
    RoundTrips decodeDataReplyPayload (encodeDataReplyPayload handle) (message (.dataReplyPayload handle)) := by
  have hw : compactWidthFromEndOfByte (byteOf (compactWidthOr 0x70 (getWidthMax64Int handle.toNat))) =
      getWidthMax64Int handle.toNat := by
    rcases width64 handle.toNat with h | h | h | h <;> rw [h] <;> decide
  refine roundTrips_of_reads fun g rest hr hg => ?_
  have hlen := encodeIntMax64_length handle.toNat
  unfold encodeDataReplyPayload at hg
  generalize byteOf _ = hd at hw hg
  unfold decodeDataReplyPayload
  refine step_next hr hg (by simp) fun g1 r1 c1 l1 _ => ?_
  rw [step_byte (b := hd) c1 (by omega) rfl, hw]
  refine step_next r1 c1 (by simp; omega) fun g2 r2 c2 l2 _ => ?_
  rw [step_compact (i := 1) (x := handle) (a := [hd]) (b := rest) c2 (by simp) rfl rfl l2]
  exact step_prune (a := [hd] ++ encodeIntMax64 handle.toNat) (b := rest) r2 c2 l2 rfl (by simp; omega)
    fun g4 r4 c4 => step_pure r4 c4

example : encodeDataReplyPayload 70000 = [0x72, 0, 1, 17, 112] := by decide

/-- C71 for set-eagerness messages. -/
theorem C71_setEagerness_partial (isEager : Bool) (senderHandle receiverHandle : UInt64) :
    RoundTrips decodeDataSetEagerness (encodeDataSetEagerness isEager senderHandle receiverHandle)
      (message (.dataSetMetadata isEager senderHandle receiverHandle)) := by
  refine roundTrips_of_reads fun g rest hr hg => ?_
  have h1 := encodeIntMax64_length senderHandle.toNat
  have h2 := encodeIntMax64_length receiverHandle.toNat
  unfold encodeDataSetEagerness at hg
  dsimp only at hg
  have hf : (byteOf (0x68 ||| if isEager then 0x2 else 0x0) &&& 0x2 == 0x2) = isEager := by
    cases isEager <;> decide
  have hs : compactWidthFromEndOfByte (byteOf (compactWidthOr (compactWidthOr 0x0 (getWidthMax64Int senderHandle.toNat) <<< 2)
      (getWidthMax64Int receiverHandle.toNat) <<< 4) >>> 6) = getWidthMax64Int senderHandle.toNat ∧
      compactWidthFromEndOfByte (byteOf (compactWidthOr (compactWidthOr 0x0 (getWidthMax64Int senderHandle.toNat) <<< 2)
      (getWidthMax64Int receiverHandle.toNat) <<< 4) >>> 4) = getWidthMax64Int receiverHandle.toNat := by
    rcases width64 senderHandle.toNat with h | h | h | h <;> rcases width64 receiverHandle.toNat with k | k | k | k <;>
      rw [h, k] <;> decide
  generalize byteOf (_ <<< 4) = b2 at hs hg
  generalize byteOf (0x68 ||| _) = b1 at hf hg
  unfold decodeDataSetEagerness
  refine step_next hr hg (by simp) fun g1 r1 c1 l1 _ => ?_
  rw [step_byte (b := b1) c1 (by omega) rfl, step_byte (b := b2) c1 (by omega) rfl]
  rw [hf, hs.1, hs.2]
  refine step_next r1 c1 (by simp; omega) fun g2 r2 c2 l2 _ => ?_
  rw [step_compact (i := 2) (x := senderHandle) (a := [b1, b2]) (b := encodeIntMax64 receiverHandle.toNat ++ rest) c2
    (by simp) rfl rfl (by omega)]
  rw [step_compact (i := 2 + getWidthMax64Int senderHandle.toNat) (x := receiverHandle)
    (a := [b1, b2] ++ encodeIntMax64 senderHandle.toNat) (b := rest) c2 (by simp) (by simp; omega) rfl (by omega)]
  exact step_prune (a := [b1, b2] ++ encodeIntMax64 senderHandle.toNat ++ encodeIntMax64 receiverHandle.toNat) (b := rest)
    r2 c2 l2 rfl (by simp; omega) fun g4 r4 c4 => step_pure r4 c4

example : encodeDataSetEagerness true 300 5 = [0x6a, 0x40, 1, 44, 5] ∧
    (⟨[0x6a], [[0x40, 1], [], [44, 5, 7]], [], .exact⟩ : GB).content = [0x6a, 0x40, 1, 44, 5] ++ [7] := by decide

/-! ### Send payload -/

/-- C71, partial: a send-payload message round-trips when its bytes have arrived and no others
have. -/
theorem C71_sendPayload_partial (amount : UInt64) (bytes : Bytes) (ha : amount.toNat = bytes.length)
    (hb : bytes.length < 2 ^ 63) (g : GB) (hr : g.rest = []) (hg : g.content = encodeDataSendPayload amount bytes) :
    Gives (message (.dataSendPayload amount bytes)) [] (decodeDataSendPayload g) := by
  have := sendPayload_arrived ha hb hr (rest := []) (by simpa using hg)
  simpa using this

example : encodeDataSendPayload 3 [7, 8, 9] = [0x64, 3, 7, 8, 9] ∧ (3 : UInt64).toNat = [7, 8, 9].length := by decide

/-- C71 is violated: when bytes of the next messages have arrived too, as many of them as the
encoding has bytes are lost. -/
theorem C71_violated_sendPayload_pruned (amount : UInt64) (bytes rest : Bytes) (ha : amount.toNat = bytes.length)
    (hb : bytes.length < 2 ^ 63) (g : GB) (hr : g.rest = [])
    (hg : g.content = encodeDataSendPayload amount bytes ++ rest) :
    Gives (message (.dataSendPayload amount bytes)) (rest.drop (encodeDataSendPayload amount bytes).length)
      (decodeDataSendPayload g) := sendPayload_arrived ha hb hr hg

example : (⟨[0x64, 1, 7, 0x90, 0x91, 0x92, 0x93], [], [], .exact⟩ : GB).content =
      encodeDataSendPayload 1 [7] ++ [0x90, 0x91, 0x92, 0x93] ∧
    [0x90, 0x91, 0x92, 0x93].drop (encodeDataSendPayload 1 [7]).length = [0x93] := by decide

/-- C71 is violated: when the payload arrives after the header, the decoder crashes, or, if the array has room for
the payload, it returns zero bytes in its place and takes the payload for the next message when it arrives. -/
theorem C71_violated_sendPayload_chunks (amount : UInt64) (bytes : Bytes) (ha : amount.toNat = bytes.length)
    (hne : bytes ≠ []) (m : Mem) :
    decodeDataSendPayload ⟨encodeDataSendPayload amount [], [bytes], [], m⟩ =
      if bytes.length ≤ m.spare ∧ bytes.length < 2 ^ 63 then
        .ok (message (.dataSendPayload amount (List.replicate bytes.length 0)), ⟨[], [bytes], [], ⟨0, m.room⟩⟩)
      else .crash := by
  have hl := encodeIntMax64_length amount.toNat
  have hw := width_sendPayload amount.toNat
  have hpos : 0 < bytes.length := List.length_pos_iff.2 hne
  unfold encodeDataSendPayload
  generalize byteOf _ = b at hw
  rw [List.append_nil]
  unfold decodeDataSendPayload
  simp only [Dec.bind_apply]
  rw [nextAbsolute_of_le (by simp)]
  dsimp only
  rw [show byteAt ([b] ++ encodeIntMax64 amount.toNat) 0 = .ok b from rfl]
  simp only [Dec.lift_ok, hw]
  rw [nextAbsolute_of_le (by simp; omega)]
  dsimp only
  have hs : slice ([b] ++ encodeIntMax64 amount.toNat) 1 (1 + getWidthMax64Int amount.toNat) =
      .ok (encodeIntMax64 amount.toNat) := by
    have := slice_mid_append [b] (encodeIntMax64 amount.toNat) [] (i := 1)
      (j := 1 + getWidthMax64Int amount.toNat) rfl (by omega)
    simpa using this
  have hc : ∀ g', compactAt ([b] ++ encodeIntMax64 amount.toNat) 1 (getWidthMax64Int amount.toNat) g' = .ok (amount, g') := by
    intro g'
    unfold compactAt
    simp only [sliceArray_ok hs, Dec.bind_apply, decode_encodeIntMax64 amount.toNat_lt, Dec.liftD_ok, Dec.pure_apply,
      UInt64.ofNat_toNat]
  rw [hc]
  have hlen : ([b] ++ encodeIntMax64 amount.toNat).length = 1 + getWidthMax64Int amount.toNat := by
    simp only [List.length_append, List.length_cons, List.length_nil]
    omega
  generalize [b] ++ encodeIntMax64 amount.toNat = buf at hlen ⊢
  dsimp only
  split
  · rw [if_neg (by omega)]
    rfl
  · rename_i hlt
    simp only [Dec.bind_apply, sliceArray]
    by_cases hsp : bytes.length ≤ m.spare
    · rw [if_pos ⟨by omega, by omega⟩, if_pos ⟨hsp, by omega⟩]
      have hd : buf.drop (1 + getWidthMax64Int amount.toNat + amount.toNat) = [] := List.drop_eq_nil_of_le (by omega)
      simp only [prune, Dec.pure_apply, hd, List.drop_nil, List.length_nil, ge_iff_le, Nat.zero_le, if_true, message]
      rw [if_pos (by omega), List.drop_append_of_le_length (by omega), List.drop_eq_nil_of_le (by omega), List.nil_append,
        Nat.add_sub_cancel_left, List.take_replicate, Nat.min_eq_left (by omega), ha]
      rfl
    · rw [if_neg (by omega), if_neg (by omega)]

example : decodeDataSendPayload ⟨[0x64, 3], [[7, 8, 9]], [], .exact⟩ = .crash ∧
    decodeDataSendPayload ⟨[0x64, 3], [[7, 8, 9]], [], ⟨6, []⟩⟩ =
      .ok (message (.dataSendPayload 3 [0, 0, 0]), ⟨[], [[7, 8, 9]], [], ⟨0, []⟩⟩) ∧
    (⟨[0x64, 3], [[7, 8, 9]], [], .exact⟩ : GB).content = encodeDataSendPayload 3 [7, 8, 9] := by decide

/-! ### Messages that carry an entry -/

/-- C71, partial: a bind-payload-request message round-trips when the offset is 0 or everything
has arrived, subject to the conditions under which its entry does (C26). -/
theorem C71_bindPayloadRequest_partial (s : Schemes) (vn vs vp vt : Bytes → Prop) (hL : LawfulSchemes s vn vs vp vt)
    (aois : AoiLookup) (e current : Entry) (hv : ValidEntry s vn vs vp e) (offset capability : UInt64) (enc : Bytes)
    (h : encodeDataBindPayloadRequest s current e offset capability = .ok enc) (g : GB) (rest : Bytes)
    (hg : g.content = enc ++ rest) (ho : offset = 0 ∨ g.rest = []) (ha : PathComes s g e)
    (hs : getWidthMax32Int s.p.cl ≤ 2 + (s.pd.enc e.payloadDigest).length + rest.length) :
    Gives (message (.dataBindPayloadRequest e offset capability)) rest (decodeDataBindPayloadRequest s aois current g) := by
  suffices h : ∃ all, g.ready all ∧ (all = true ∨ offset = 0) ∧
      (all = true ∨ ∀ c ∈ e.path, c.length ≤ getWidthMax32Int s.p.cl) by
    obtain ⟨all, hr, h1, h2⟩ := h
    obtain ⟨g', h3, -, h4⟩ := bindPayloadRequest_reads hL aois hv (current := current) (by assumption) hr hg h1 h2 hs
    exact ⟨g', h3, h4⟩
  by_cases hn : g.rest = []
  · exact ⟨true, ready_of_nil hn, .inl rfl, .inl rfl⟩
  · exact ⟨false, by intro h; simp at h, .inr (ho.resolve_right hn), .inr (Or.resolve_right ha hn)⟩

/-- No area of interest. -/
def exAois : AoiLookup := ⟨fun _ _ => ⟨[], false, [], ⟨0, 0, false⟩⟩, fun _ _ => []⟩

example : encodeDataBindPayloadRequest exSchemes exRef exEntry 0 300 =
      .ok [0x6d, 0x10, 1, 44, 0x81, 1, 1, 1, 1, 7, 1, 1, 44, 8, 9] ∧
    (⟨[0x6d, 0x10, 1, 44, 0x81, 1, 1, 1, 1, 7, 1, 1, 44, 8, 9], [], [], .exact⟩ : GB).rest = [] ∧
    getWidthMax32Int exSchemes.p.cl ≤ 2 + (exSchemes.pd.enc exEntry.payloadDigest).length + 0 := by decide +kernel

/-- C71 is violated for every offset but 0: when no more than a part of the offset has come after the capability, the decoder
crashes, unless the array has room for the rest. -/
theorem C71_violated_bindPayloadRequest (s : Schemes) (aois : AoiLookup) (e current : Entry) (offset capability : UInt64)
    (h0 : offset ≠ 0) (enc : Bytes) (h : encodeDataBindPayloadRequest s current e offset capability = .ok enc) (rest : Bytes) :
    ∃ before after, enc = before ++ encodeIntMax64 offset.toNat ++ after ∧
      ∀ come late, encodeIntMax64 offset.toNat = come ++ late → ∀ m : Mem, m.spare < late.length →
        decodeDataBindPayloadRequest s aois current ⟨before ++ come, [late ++ after ++ rest], [], m⟩ = .crash := by
  unfold encodeDataBindPayloadRequest at h
  dsimp only at h
  obtain ⟨ee, hee, h⟩ := Res.bind_eq_ok.1 h
  simp only [Res.ok.injEq] at h
  subst h
  have hw : compactWidthFromEndOfByte (byteOf (compactWidthOr 0x6c (getWidthMax64Int capability.toNat))) =
      getWidthMax64Int capability.toNat := by
    rcases width64 capability.toNat with h | h | h | h <;> rw [h] <;> decide
  obtain ⟨k1, k2, k3⟩ := secondByte_bind offset _ rfl
  generalize byteOf (compactWidthOr 0x6c _) = b1 at hw ⊢
  generalize byteOf _ = b2 at k1 k2 k3 ⊢
  have k3 := k3 h0
  have hl := encodeIntMax64_length capability.toNat
  have hlo := encodeIntMax64_length offset.toNat
  rw [if_neg h0]
  refine ⟨[b1, b2] ++ encodeIntMax64 capability.toNat, ee, rfl, ?_⟩
  intro come late hcl m hm
  rw [hcl, List.length_append] at hlo
  unfold decodeDataBindPayloadRequest
  simp only [Dec.bind_apply]
  rw [nextAbsolute_of_le (by simp)]
  dsimp only
  rw [show byteAt ([b1, b2] ++ encodeIntMax64 capability.toNat ++ come) 0 = .ok b1 from rfl,
    show byteAt ([b1, b2] ++ encodeIntMax64 capability.toNat ++ come) 1 = .ok b2 from rfl]
  simp only [Dec.lift_ok, hw]
  rw [nextAbsolute_of_le (by simp; omega)]
  dsimp only
  have hs : slice ([b1, b2] ++ encodeIntMax64 capability.toNat ++ come) 2 (2 + getWidthMax64Int capability.toNat) =
      .ok (encodeIntMax64 capability.toNat) :=
    slice_mid_append [b1, b2] (encodeIntMax64 capability.toNat) come (i := 2)
      (j := 2 + getWidthMax64Int capability.toNat) rfl (by simp; omega)
  have hc : ∀ g', compactAt ([b1, b2] ++ encodeIntMax64 capability.toNat ++ come) 2 (getWidthMax64Int capability.toNat) g' =
      .ok (capability, g') := by
    intro g'
    unfold compactAt
    simp only [sliceArray_ok hs, Dec.bind_apply, decode_encodeIntMax64 capability.toNat_lt, Dec.liftD_ok, Dec.pure_apply,
      UInt64.ofNat_toNat]
  rw [hc]
  simp only [k1, h0, ne_eq, not_false_eq_true, decide_true, if_true, k3, Dec.bind_apply]
  have hcr : compactAt ([b1, b2] ++ encodeIntMax64 capability.toNat ++ come) (2 + getWidthMax64Int capability.toNat)
      (getWidthMax64Int offset.toNat) ⟨[b1, b2] ++ encodeIntMax64 capability.toNat ++ come, [late ++ ee ++ rest], [], m⟩ = .crash := by
    unfold compactAt
    simp only [Dec.bind_apply, sliceArray]
    rw [if_neg]
    simp only [List.length_append, List.length_cons, List.length_nil]
    omega
  rw [hcr]

example : encodeDataBindPayloadRequest exSchemes exRef exEntry 1 300 =
      .ok [0x6d, 0x90, 1, 44, 1, 0x81, 1, 1, 1, 1, 7, 1, 1, 44, 8, 9] ∧
    decodeDataBindPayloadRequest exSchemes exAois exRef
      ⟨[0x6d, 0x90, 1, 44], [[1, 0x81, 1, 1, 1, 1, 7, 1, 1, 44, 8, 9]], [], .exact⟩ = .crash := by
  decide +kernel

/-! ### Send entry -/

/-- C71, partial: a send-entry message round-trips when its handle is below 256 and not 2, 4 or
8, and the offset is 0 or the length of the payload, subject to the conditions under which its
entry does (C26). -/
theorem C71_sendEntry_partial (s : Schemes) (vn vs vp vt : Bytes → Prop) (hL : LawfulSchemes s vn vs vp vt)
    (aois : AoiLookup) (e current : Entry) (hv : ValidEntry s vn vs vp e) (handle : UInt64) (token : Bytes)
    (ht : vt token) (offset : UInt64) (enc : Bytes)
    (h : encodeDataSendEntry s current e handle token offset = .ok enc) (g : GB) (rest : Bytes)
    (hg : g.content = enc ++ rest) (hh : handle < 256 ∧ handle ≠ 2 ∧ handle ≠ 4 ∧ handle ≠ 8)
    (ho : offset = 0 ∨ offset = e.payloadLength) (ha : PathComes s g e)
    (hs : getWidthMax32Int s.p.cl ≤ 2 + (s.pd.enc e.payloadDigest).length + rest.length) :
    Gives (message (.dataSendEntry e handle token offset)) rest (decodeDataSendEntry s aois current g) := by
  obtain ⟨all, hr, ha⟩ : ∃ all, g.ready all ∧ (all = true ∨ ∀ c ∈ e.path, c.length ≤ getWidthMax32Int s.p.cl) := by
    rcases ha with ha | ha
    · exact ⟨false, by intro h; simp at h, .inr ha⟩
    · exact ⟨true, ready_of_nil ha, .inl rfl⟩
  suffices h : GivesR all (message (.dataSendEntry e handle token offset)) rest (decodeDataSendEntry s aois current g) by
    obtain ⟨g', h3, -, h4⟩ := h
    exact ⟨g', h3, h4⟩
  unfold encodeDataSendEntry at h
  dsimp only at h
  obtain ⟨ee, hee, h⟩ := Res.bind_eq_ok.1 h
  simp only [Res.ok.injEq] at h
  subst h
  have hw : compactWidthFromEndOfByte (byteOf (0x60 ||| compactWidthOr 0 (widthKey handle))) =
      getWidthMax64Int handle.toNat := by
    rw [firstByte_sendEntry, if_neg hh.2.1, if_neg hh.2.2.1, if_neg hh.2.2.2]
    have := hh.1
    rw [UInt64.lt_iff_toNat_lt] at this
    unfold getWidthMax64Int
    simp at this
    rw [if_pos (by omega)]
  have k : ∀ b, b = byteOf ((if offset ≠ 0 ∧ offset ≠ e.payloadLength then 0x80 else 0x0) |||
      (if offset = 0 then 0x0 else if offset = e.payloadLength then 0x20
        else compactWidthOr 0 (getWidthMax64Int offset.toNat <<< 5)) ||| 0x10 ||| 0x0 ||| 0x0) →
      (b &&& 0x80 == 0x80) = false ∧ (b &&& 0x10 == 0x10) = true ∧ (b &&& 0x20 == 0x20) = decide (offset ≠ 0) := by
    rintro b rfl
    by_cases h0 : offset = 0
    · simp only [h0, ne_eq, not_true_eq_false, false_and, if_false, if_true, decide_false]
      decide
    · have h1 := ho.resolve_left h0
      rw [if_neg (fun h => h.2 h1), if_neg h0, if_pos h1, decide_eq_true h0]
      decide
  obtain ⟨k1, k2, k3⟩ := k _ rfl
  generalize byteOf (0x60 ||| _) = b1 at hw hg
  generalize byteOf _ = b2 at k1 k2 k3 hg
  have hl := encodeIntMax64_length handle.toNat
  simp only [List.append_assoc] at hg
  unfold decodeDataSendEntry
  refine step_next hr hg (by simp) fun g1 r1 c1 l1 _ => ?_
  rw [step_byte (b := b1) c1 (by omega) rfl, step_byte (b := b2) c1 (by omega) rfl]
  simp only [hw, k1, k2, k3, if_true, Bool.false_eq_true, if_false, Bool.not_false, Bool.true_and]
  refine step_prune (a := [b1, b2]) r1 c1 l1 rfl rfl fun g2 r2 c2 => ?_
  refine step_next r2 c2 (by simp; omega) fun g3 r3 c3 l3 _ => ?_
  rw [step_compact (i := 0) (x := handle) (a := []) c3 rfl rfl rfl (by omega)]
  refine step_prune (a := encodeIntMax64 handle.toNat) r3 c3 l3 rfl (by omega) fun g4 r4 c4 => ?_
  refine step_codec hL.dynamicToken ht r4 c4 fun g5 r5 c5 => ?_
  rw [Dec.pure_bind]
  refine step_dec (entry_reads hL hv hee r5 c5 ha hs) fun g6 r6 c6 => ?_
  refine ⟨g6, ?_, r6, c6⟩
  have : (if decide (offset ≠ 0) = true then e.payloadLength else 0) = offset := by
    by_cases h0 : offset = 0
    · simp [h0]
    · rw [if_pos (decide_eq_true h0)]; exact (ho.resolve_left h0).symm
  rw [this]
  rfl

example : encodeDataSendEntry exSchemes exRef exEntry 7 [1, 2] 0 =
      .ok [0x60, 0x10, 7, 1, 2, 0x81, 1, 1, 1, 1, 7, 1, 1, 44, 8, 9] ∧
    encodeDataSendEntry exSchemes exRef exEntry 7 [1, 2] exEntry.payloadLength =
      .ok [0x60, 0x30, 7, 1, 2, 0x81, 1, 1, 1, 1, 7, 1, 1, 44, 8, 9] ∧
    PathComes exSchemes ⟨[0x60, 0x10, 7, 1, 2, 0x81, 1, 1, 1, 1, 7, 1, 1, 44, 8, 9], [], [], .exact⟩ exEntry :=
  ⟨by decide +kernel, by decide +kernel, .inr rfl⟩

/-- C71 is violated: a send-entry message with one of the other handles never comes back. -/
theorem C71_violated_sendEntry_handle (s : Schemes) (aois : AoiLookup) (e current : Entry) (handle : UInt64)
    (token : Bytes) (offset : UInt64) (enc : Bytes) (h : encodeDataSendEntry s current e handle token offset = .ok enc)
    (g : GB) (rest : Bytes) (hg : g.content = enc ++ rest)
    (hh : handle = 2 ∨ handle = 4 ∨ handle = 8 ∨ 256 ≤ handle) :
    ¬ ∃ g', decodeDataSendEntry s aois current g = .ok (message (.dataSendEntry e handle token offset), g') := by
  rintro ⟨g', hd⟩
  unfold encodeDataSendEntry at h
  dsimp only at h
  obtain ⟨ee, hee, h⟩ := Res.bind_eq_ok.1 h
  simp only [Res.ok.injEq] at h
  subst h
  have hw := firstByte_sendEntry handle
  generalize byteOf (0x60 ||| _) = b1 at hw hg
  generalize byteOf _ = b2 at hg
  simp only [List.append_assoc] at hg
  unfold decodeDataSendEntry at hd
  obtain ⟨g1, m1, c1, l1, hd⟩ := inv_next hg hd
  rw [step_byte (b := b1) c1 (by omega) rfl, step_byte (b := b2) c1 (by omega) rfl] at hd
  rw [hw] at hd
  dsimp only at hd
  obtain ⟨g2, m2, c2, hd⟩ := inv_prune (a := [b1, b2]) c1 l1 rfl rfl hd
  obtain ⟨g3, m3, c3, l3, hd⟩ := inv_next c2 hd
  have hwd : Width (if handle = 2 then 2 else if handle = 4 then 4 else if handle = 8 then 8 else 1) := by
    unfold Width
    grind
  rw [compactAt_eq c3 (by omega) hwd] at hd
  obtain ⟨_, _, _, hd⟩ := Dec.bind_ok.1 hd
  obtain ⟨_, _, _, hd⟩ := Dec.bind_ok.1 hd
  obtain ⟨_, _, _, hd⟩ := Dec.bind_ok.1 hd
  obtain ⟨_, _, _, hd⟩ := Dec.bind_ok.1 hd
  simp only [Dec.pure_apply, Res.ok.injEq, Prod.mk.injEq, message, Msg.mk.injEq, Body.dataSendEntry.injEq] at hd
  have hv := hd.1.2.2.1
  have hlen : (if handle = 2 then 2 else if handle = 4 then 4 else if handle = 8 then 8 else 1) ≤
      (encodeIntMax64 handle.toNat ++ (s.dynamicToken.enc token ++ (ee ++ rest))).length := by
    rw [← c3, GB.content, List.length_append]; omega
  generalize s.dynamicToken.enc token ++ (ee ++ rest) = tl at hv hlen
  rw [List.drop_zero] at hv
  have hlt := getBE_lt ((encodeIntMax64 handle.toNat ++ tl).take
    (if handle = 2 then 2 else if handle = 4 then 4 else if handle = 8 then 8 else 1))
  have hv : getBE ((encodeIntMax64 handle.toNat ++ tl).take
    (if handle = 2 then 2 else if handle = 4 then 4 else if handle = 8 then 8 else 1)) = handle.toNat := by
    have := congrArg UInt64.toNat hv
    rw [UInt64.toNat_ofNat', Nat.mod_eq_of_lt] at this
    · exact this
    · refine Nat.lt_of_lt_of_le hlt ?_
      rw [show (2 : Nat) ^ 64 = 256 ^ 8 by decide]
      refine Nat.pow_le_pow_right (by decide) ?_
      rw [List.length_take]
      grind
  have small : ∀ (x : UInt8) (w : Nat), 2 ≤ w → w ≤ ([x] ++ tl).length → 0 < x.toNat →
      256 ≤ getBE (([x] ++ tl).take w) := by
    intro x w hw hl hx
    obtain ⟨w, rfl⟩ : ∃ k, w = k + 1 := ⟨w - 1, by omega⟩
    rw [List.cons_append, List.nil_append, List.take_succ_cons, getBE_cons]
    have hk : (tl.take w).length = w := by
      rw [List.length_take]; simp at hl; omega
    rw [hk]
    have h1 : 256 ^ 1 ≤ 256 ^ w := Nat.pow_le_pow_right (by decide) (by omega)
    have h2 : 256 ^ w ≤ x.toNat * 256 ^ w := Nat.le_mul_of_pos_left _ hx
    omega
  rcases hh with rfl | rfl | rfl | hh
  · have := small 2 2 (by decide) hlen (by decide)
    exact absurd (Nat.le_trans this (Nat.le_of_eq hv)) (by decide)
  · have := small 4 4 (by decide) hlen (by decide)
    exact absurd (Nat.le_trans this (Nat.le_of_eq hv)) (by decide)
  · have := small 8 8 (by decide) hlen (by decide)
    exact absurd (Nat.le_trans this (Nat.le_of_eq hv)) (by decide)
  · have h256 : 256 ≤ handle.toNat := by rw [UInt64.le_iff_toNat_le] at hh; exact hh
    rw [if_neg (by rintro rfl; simp at h256), if_neg (by rintro rfl; simp at h256),
      if_neg (by rintro rfl; simp at h256)] at hlt hv
    rw [hv] at hlt
    have : 256 ^ ((encodeIntMax64 handle.toNat ++ tl).take 1).length ≤ 256 ^ 1 :=
      Nat.pow_le_pow_right (by decide) (by rw [List.length_take]; omega)
    omega

example : encodeDataSendEntry exSchemes exRef exEntry 2 [1, 2] 0 =
      .ok [0x61, 0x10, 2, 1, 2, 0x81, 1, 1, 1, 1, 7, 1, 1, 44, 8, 9] ∧
    encodeDataSendEntry exSchemes exRef exEntry 300 [1, 2] 0 =
      .ok [0x60, 0x10, 1, 44, 1, 2, 0x81, 1, 1, 1, 1, 7, 1, 1, 44, 8, 9] := by decide +kernel

/-- C71 is violated: the offset of a send-entry message, unless it is 0 or the length of the
payload, is not encoded; one of 256 or more never comes back. -/
theorem C71_violated_sendEntry_offset (s : Schemes) (aois : AoiLookup) (e current : Entry) (handle : UInt64)
    (token : Bytes) (offset : UInt64) (enc : Bytes) (h : encodeDataSendEntry s current e handle token offset = .ok enc)
    (g : GB) (rest : Bytes) (hg : g.content = enc ++ rest) (ho : 256 ≤ offset) (hne : offset ≠ e.payloadLength) :
    ¬ ∃ g', decodeDataSendEntry s aois current g = .ok (message (.dataSendEntry e handle token offset), g') := by
  rintro ⟨g', hd⟩
  have h256 : 256 ≤ offset.toNat := by rw [UInt64.le_iff_toNat_le] at ho; exact ho
  have h0 : offset ≠ 0 := by rintro rfl; simp at h256
  unfold encodeDataSendEntry at h
  dsimp only at h
  obtain ⟨ee, hee, h⟩ := Res.bind_eq_ok.1 h
  simp only [Res.ok.injEq] at h
  subst h
  have k : ∀ b, b = byteOf ((if offset ≠ 0 ∧ offset ≠ e.payloadLength then 0x80 else 0x0) |||
      (if offset = 0 then 0x0 else if offset = e.payloadLength then 0x20
        else compactWidthOr 0 (getWidthMax64Int offset.toNat <<< 5)) ||| 0x10 ||| 0x0 ||| 0x0) → b = 0x90 := by
    rintro b rfl
    rw [if_pos ⟨h0, hne⟩, if_neg h0, if_neg hne]
    rcases width64 offset.toNat with h | h | h | h <;> rw [h] <;> decide
  rw [k _ rfl] at hg
  generalize byteOf (0x60 ||| _) = b1 at hg
  simp only [List.append_assoc] at hg
  unfold decodeDataSendEntry at hd
  obtain ⟨g1, m1, c1, l1, hd⟩ := inv_next hg hd
  rw [step_byte (b := b1) c1 (by omega) rfl, step_byte (b := 0x90) c1 (by omega) rfl] at hd
  dsimp only at hd
  obtain ⟨_, _, _, hd⟩ := Dec.bind_ok.1 hd
  obtain ⟨_, _, _, hd⟩ := Dec.bind_ok.1 hd
  obtain ⟨_, _, _, hd⟩ := Dec.bind_ok.1 hd
  obtain ⟨_, _, _, hd⟩ := Dec.bind_ok.1 hd
  obtain ⟨_, g2, _, hd⟩ := Dec.bind_ok.1 hd
  obtain ⟨o, g3, hof, hd⟩ := Dec.bind_ok.1 hd
  obtain ⟨_, _, _, hd⟩ := Dec.bind_ok.1 hd
  have hf : ((0x90 : UInt8) &&& 0x80 == 0x80) = true := by decide
  have hw : compactWidthFromEndOfByte (((0x90 : UInt8) &&& 0x60) >>> 5) = 1 := by decide
  simp only [hf, hw, if_true, Bool.not_true, Bool.false_eq_true, if_false, Dec.pure_apply, Res.ok.injEq, Prod.mk.injEq,
    message, Msg.mk.injEq, Body.dataSendEntry.injEq] at hd hof
  have hv := hd.1.2.2.2.2
  obtain ⟨g4, m4, c4, l4, hof⟩ := inv_next rfl hof
  rw [compactAt_eq c4 (by omega) (.inl rfl)] at hof
  obtain ⟨_, _, _, hof⟩ := Dec.bind_ok.1 hof
  simp only [Dec.pure_apply, Res.ok.injEq, Prod.mk.injEq] at hof
  have hlt := getBE_lt ((g2.content.drop 0).take 1)
  have h1 : 256 ^ ((g2.content.drop 0).take 1).length ≤ 256 ^ 1 :=
    Nat.pow_le_pow_right (by decide) (by rw [List.length_take]; omega)
  generalize getBE ((g2.content.drop 0).take 1) = v at hof hlt
  have h2 := congrArg UInt64.toNat (hof.1.trans hv)
  rw [UInt64.toNat_ofNat'] at h2
  have h3 := Nat.mod_le v (2 ^ 64)
  have h4 : (256 : Nat) ^ 1 = 256 := rfl
  generalize v % 2 ^ 64 = u at h2 h3
  omega

example : encodeDataSendEntry exSchemes exRef exEntry 7 [1, 2] 299 =
      .ok [0x60, 0x90, 7, 1, 2, 0x81, 1, 1, 1, 1, 7, 1, 1, 44, 8, 9] ∧
    (256 : UInt64) ≤ 299 ∧ 299 ≠ exEntry.payloadLength := by decide +kernel

/-- C71 is violated for small offsets too: whatever the offset, unless it is 0 or the length of the payload, the first byte of
the entry comes back for it, and the entry is decoded from the bytes after that one. -/
theorem C71_violated_sendEntry_small (s : Schemes) (vt : Bytes → Prop) (hT : s.dynamicToken.Lawful vt) (aois : AoiLookup)
    (e current : Entry) (handle : UInt64) (hh : handle < 256 ∧ handle ≠ 2 ∧ handle ≠ 4 ∧ handle ≠ 8) (token : Bytes)
    (ht : vt token) (offset : UInt64) (h0 : offset ≠ 0) (hne : offset ≠ e.payloadLength) (enc : Bytes)
    (h : encodeDataSendEntry s current e handle token offset = .ok enc) (g : GB) (rest : Bytes)
    (hg : g.content = enc ++ rest) (m : Msg) (g' : GB) (hd : decodeDataSendEntry s aois current g = .ok (m, g')) :
    ∃ b bs e' g1, encodeEntryRelativeEntry s.ns s.ss s.pd s.eqNs s.ordS s.p e current = .ok (b :: bs) ∧
      m = message (.dataSendEntry e' handle token (UInt64.ofNat b.toNat)) ∧ g1.content = bs ++ rest ∧
      decodeStreamEntryRelativeEntry s.ns s.ss s.pd s.p current g1 = .ok (e', g') := by
  unfold encodeDataSendEntry at h
  dsimp only at h
  obtain ⟨ee, hee, h⟩ := Res.bind_eq_ok.1 h
  simp only [Res.ok.injEq] at h
  subst h
  obtain ⟨b, bs, rfl⟩ : ∃ b bs, ee = b :: bs := by
    have hee := hee
    unfold encodeEntryRelativeEntry at hee
    obtain ⟨_, _, hee⟩ := Res.bind_eq_ok.1 hee
    simp only [Res.ok.injEq] at hee
    subst hee
    exact ⟨_, _, rfl⟩
  have hw : compactWidthFromEndOfByte (byteOf (0x60 ||| compactWidthOr 0 (widthKey handle))) =
      getWidthMax64Int handle.toNat := by
    rw [firstByte_sendEntry, if_neg hh.2.1, if_neg hh.2.2.1, if_neg hh.2.2.2]
    have := hh.1
    rw [UInt64.lt_iff_toNat_lt] at this
    unfold getWidthMax64Int
    simp at this
    rw [if_pos (by omega)]
  have k : ∀ b, b = byteOf ((if offset ≠ 0 ∧ offset ≠ e.payloadLength then 0x80 else 0x0) |||
      (if offset = 0 then 0x0 else if offset = e.payloadLength then 0x20
        else compactWidthOr 0 (getWidthMax64Int offset.toNat <<< 5)) ||| 0x10 ||| 0x0 ||| 0x0) → b = 0x90 := by
    rintro b rfl
    rw [if_pos ⟨h0, hne⟩, if_neg h0, if_neg hne]
    rcases width64 offset.toNat with h | h | h | h <;> rw [h] <;> decide
  rw [k _ rfl] at hg
  generalize byteOf (0x60 ||| _) = b1 at hw hg
  have hl := encodeIntMax64_length handle.toNat
  simp only [List.append_assoc] at hg
  have hf : ((0x90 : UInt8) &&& 0x80 == 0x80) = true := by decide
  have hf' : ((0x90 : UInt8) &&& 0x10 == 0x10) = true := by decide
  have hwo : compactWidthFromEndOfByte (((0x90 : UInt8) &&& 0x60) >>> 5) = 1 := by decide
  unfold decodeDataSendEntry at hd
  obtain ⟨g1, _, c1, l1, hd⟩ := inv_next hg hd
  rw [step_byte (b := b1) c1 (by omega) rfl, step_byte (b := 0x90) c1 (by omega) rfl] at hd
  simp only [hw, hf, hf', hwo, if_true, Bool.not_true, Bool.false_eq_true, if_false] at hd
  obtain ⟨g2, _, c2, hd⟩ := inv_prune (a := [b1, 0x90]) c1 l1 rfl rfl hd
  obtain ⟨g3, _, c3, l3, hd⟩ := inv_next c2 hd
  rw [step_compact (i := 0) (x := handle) (a := []) c3 rfl rfl rfl (by omega)] at hd
  obtain ⟨g4, _, c4, hd⟩ := inv_prune (a := encodeIntMax64 handle.toNat) c3 l3 rfl (by omega) hd
  obtain ⟨g5, h5, _, c5⟩ := hT.reads token false ht g4 _ (by intro h; simp at h) c4 (Nat.zero_le _)
  rw [Dec.bind_apply, h5] at hd
  dsimp only at hd
  obtain ⟨o, g6, hof, hd⟩ := Dec.bind_ok.1 hd
  obtain ⟨g7, _, c7, l7, hof⟩ := inv_next c5 hof
  rw [compactAt_eq c7 (by omega) (.inl rfl)] at hof
  obtain ⟨g8, _, c8, hof⟩ := inv_prune (a := [b]) c7 l7 rfl rfl hof
  simp only [Dec.pure_apply, Res.ok.injEq, Prod.mk.injEq] at hof
  obtain ⟨e', g9, h9, hd⟩ := Dec.bind_ok.1 hd
  simp only [Dec.pure_apply, Res.ok.injEq, Prod.mk.injEq] at hd
  refine ⟨b, bs, e', g8, hee, ?_, c8, ?_⟩
  · rw [← hd.1, ← hof.1]
    simp [message, kindOf, getBE]
  · rw [hof.2, ← hd.2]
    exact h9

example : encodeDataSendEntry exSchemes exRef exEntry 7 [1, 2] 1 =
      .ok [0x60, 0x90, 7, 1, 2, 0x81, 1, 1, 1, 1, 7, 1, 1, 44, 8, 9] ∧
    Gives (message (.dataSendEntry { exEntry with namespaceId := [3] } 7 [1, 2] 129)) []
      (decodeDataSendEntry exSchemes exAois exRef
        ⟨[0x60, 0x90, 7, 1, 2, 0x81, 1, 1, 1, 1, 7, 1, 1, 44, 8, 9], [], [], .exact⟩) :=
  ⟨by decide +kernel, ⟨⟨[], [], [], .exact⟩, by decide +kernel, rfl⟩⟩

end Willow.Props
