import Verif.Lemmas.PropsMessagesSetup
import Verif.Props.MessagesData
import Verif.Props.RelativeArea2

/-! Properties C72 and C73: round trips of setup and private-area-intersection messages. -/

namespace Willow.Props

open Willow Spec

/-! ## C72 -/

/-- C72 for bind-read-capability messages whose handle fits the integers of the path scheme. -/
theorem C72_readCapability_partial (s : Schemes) (vc vg : Bytes → Prop) (hc : s.readCap.Lawful vc)
    (hg : s.syncSig.Lawful vg) (capability signature : Bytes) (h1 : vc capability) (h2 : vg signature) (handle : UInt64)
    (hh : handle.toNat < 2 ^ s.p.bits) :
    RoundTrips (decodeSetupBindReadCapability s) (encodeSetupBindReadCapability s capability handle signature)
      (message (.setupBindReadCapability capability handle signature)) := by
  have := readCapability_cut hc hg h1 h2 handle
  rwa [conv_of_lt hh, UInt64.ofNat_toNat] at this

example : encodeSetupBindReadCapability exSchemes [1, 2] 200 [3, 4] = [0x20, 200, 1, 2, 3, 4] ∧
    (200 : UInt64).toNat < 2 ^ exSchemes.p.bits := by decide

/-- C72 is violated for other handles: a different one comes back. -/
theorem C72_violated_readCapability (s : Schemes) (vc vg : Bytes → Prop) (hc : s.readCap.Lawful vc)
    (hg : s.syncSig.Lawful vg) (capability signature : Bytes) (h1 : vc capability) (h2 : vg signature) (handle : UInt64)
    (hh : 2 ^ s.p.bits ≤ handle.toNat) :
    ∃ x, x ≠ handle ∧
      RoundTrips (decodeSetupBindReadCapability s) (encodeSetupBindReadCapability s capability handle signature)
        (message (.setupBindReadCapability capability x signature)) := by
  refine ⟨_, ?_, readCapability_cut hc hg h1 h2 handle⟩
  intro h
  have h' := congrArg UInt64.toNat h
  have hle : s.p.conv handle.toNat < 2 ^ s.p.bits := Nat.mod_lt _ (Nat.two_pow_pos _)
  rw [UInt64.toNat_ofNat'] at h'
  have := Nat.mod_le (s.p.conv handle.toNat) (2 ^ 64)
  omega

example : (fixedCodec 2).Lawful (·.length = 2) ∧ exSchemes.p.bits = 8 ∧ 2 ^ 8 ≤ (300 : UInt64).toNat ∧
    encodeSetupBindReadCapability exSchemes [1, 2] 300 [3, 4] = [0x20, 44, 1, 2, 3, 4] :=
  ⟨fixedCodec_lawful 2, by decide, by decide, by decide⟩

/-- C72 for bind-static-token messages. -/
theorem C72_staticToken_partial (s : Schemes) (v : Bytes → Prop) (hc : s.staticToken.Lawful v) (token : Bytes) (h : v token) :
    RoundTrips (decodeSetupBindStaticToken s) (encodeSetupBindStaticToken s token) (message (.setupBindStaticToken token)) := by
  refine roundTrips_of_reads fun g rest hr hg => ?_
  unfold encodeSetupBindStaticToken at hg
  rw [List.append_assoc] at hg
  unfold decodeSetupBindStaticToken
  refine step_next hr hg (by simp) fun g1 r1 c1 l1 _ => ?_
  refine step_prune (a := [0x30]) r1 c1 l1 rfl rfl fun g2 r2 c2 => ?_
  refine step_codec hc h r2 c2 fun g3 r3 c3 => ?_
  exact step_pure r3 c3

example : encodeSetupBindStaticToken exSchemes [1, 2] = [0x30, 1, 2] := by decide

/-! ### Areas of interest -/

/-- C72 is violated: no limit of an area of interest comes back. -/
theorem C72_violated_limits (s : Schemes) (outer : Area) (getPrivy : UInt64 → Area) (aoi : AreaOfInterest) (auth : UInt64)
    (enc : Bytes) (h : encodeSetupBindAreaOfInterest s outer aoi auth = .ok enc) (g g' : GB) (rest : Bytes) (m : Msg)
    (hg : g.content = enc ++ rest) (hd : decodeSetupBindAreaOfInterest s getPrivy g = .ok (m, g')) :
    ∃ area handle, m = message (.setupBindAreaOfInterest ⟨area, 0, 0⟩ handle) := by
  obtain ⟨area, tail, v, ha, hv, rfl, -⟩ := encode_aoi_inv h
  have hh := header_aoi v hv (s.p.conv auth.toNat)
  generalize byteOf _ = b at hh hg
  simp only [List.append_assoc] at hg
  unfold decodeSetupBindAreaOfInterest at hd
  obtain ⟨g1, m1, c1, l1, hd⟩ := inv_next hg hd
  rw [step_byte (b := b) c1 (by omega) rfl, hh] at hd
  obtain ⟨_, _, _, hd⟩ := Dec.bind_ok.1 hd
  obtain ⟨handle, _, _, hd⟩ := Dec.bind_ok.1 hd
  obtain ⟨_, _, _, hd⟩ := Dec.bind_ok.1 hd
  obtain ⟨a, _, _, hd⟩ := Dec.bind_ok.1 hd
  simp only [Bool.not_false, if_true, Dec.pure_apply, Res.ok.injEq, Prod.mk.injEq] at hd
  exact ⟨a, handle, hd.1.symm⟩

example : encodeSetupBindAreaOfInterest exSchemes exOuterArea ⟨{ exInner with times := ⟨200, 70000, false⟩ }, 5, 300⟩ 3 =
    .ok [0x28, 3, 0x20, 190, 1, 1, 1, 1, 2, 0, 5, 44] ∧
    (decodeSetupBindAreaOfInterest exSchemes (fun _ => exOuterArea)
      ⟨[0x28, 3, 0x20, 190, 1, 1, 1, 1, 2, 0, 5, 44], [], [], .exact⟩) =
      .ok (message (.setupBindAreaOfInterest ⟨{ exInner with times := ⟨200, 70000, false⟩ }, 0, 0⟩ 3),
        ⟨[0, 5, 44], [], [], .exact⟩) := by decide +kernel

/-- The area the stream decoder makes of an encoded one. -/
def decodedArea (inner outer : Area) : Area where
  path := inner.path
  subspace := inner.subspace
  anySubspace := false
  times := ⟨decodedStart inner outer, if inner.times.openEnd then 0 else decodedStop inner outer, inner.times.openEnd⟩

/-- C72, partial: a bind-area-of-interest message without limits comes back with an area with
the same positions, if its handle fits the integers of the path scheme, the receiver knows the
same outer area, both areas are for the same subspace, and the conditions under which the area
itself comes back hold (C28). -/
theorem C72_areaOfInterest_partial (s : Schemes) (ho : Decides BytesLt s.ordS) (outer inner : Area) (getPrivy : UInt64 → Area) (auth : UInt64)
    (hauth : auth.toNat < 2 ^ s.p.bits) (hp : getPrivy auth = outer) (hv : ShortPath s.p inner.path)
    (hi : inner.anySubspace = false) (hoa : outer.anySubspace = false) (hss : inner.subspace = outer.subspace)
    (hw : inner.times.start - outer.times.start < 256)
    (hstart : inner.times.start - outer.times.start ≤ endOf outer.times - inner.times.start)
    (hend : inner.times.openEnd = true ∨ outer.times.openEnd = false ∨
      endOf inner.times - inner.times.start ≤ endOf outer.times - endOf inner.times)
    (enc : Bytes) (h : encodeSetupBindAreaOfInterest s outer ⟨inner, 0, 0⟩ auth = .ok enc) (g : GB) (rest : Bytes)
    (hg : g.content = enc ++ rest) (ha : (∀ c ∈ inner.path, c.length ≤ getWidthMax32Int s.p.cl) ∨ g.rest = [])
    (hs : getWidthMax32Int s.p.cl ≤ rest.length) :
    ∃ x, Gives (message (.setupBindAreaOfInterest ⟨x, 0, 0⟩ auth)) rest (decodeSetupBindAreaOfInterest s getPrivy g) ∧
      SamePositions x inner := by
  obtain ⟨area, tail, v, he, -, rfl, ht⟩ := encode_aoi_inv h
  obtain ⟨rfl, rfl⟩ := ht ⟨rfl, rfl⟩
  dsimp only at he
  have hsame : isSubspaceSame s.ordS inner outer = true := by
    simp [isSubspaceSame, hi, hoa, hss, (ho.eq_iff _ _).2]
  rw [encodeAreaInArea_same (ss' := nilCodec) hsame] at he
  obtain ⟨h1, h2⟩ := decodedTimes hstart hend
  have hsd : startDiffOf inner outer = inner.times.start - outer.times.start := by
    unfold startDiffOf bigIntMin
    rw [if_neg (by simp only [UInt64.le_iff_toNat_le, UInt64.lt_iff_toNat_lt, gt_iff_lt] at *; omega)]
  have hdec := fun all => decodes_areaInArea nilCodec_lawful ho hv (fun h => by simp [hsame] at h) hi
    (by rw [hsd]; exact hw) he all
  rw [conv_of_lt hauth, Nat.or_zero] at hg
  have hh := header_aoi 0 (.inr rfl) auth.toNat
  have hwd : compactWidthFromEndOfByte (byteOf (compactWidthOr 0x28 (getWidthMax64Int auth.toNat))) =
      getWidthMax64Int auth.toNat := by
    rcases width64 auth.toNat with h | h | h | h <;> rw [h] <;> decide
  rw [Nat.or_zero] at hh
  generalize byteOf _ = b at hh hwd hg
  have hl := encodeIntMax64_length auth.toNat
  simp only [List.append_assoc, List.nil_append] at hg
  obtain ⟨all, hr, ha⟩ : ∃ all, g.ready all ∧ PathArrives s.p all inner.path := by
    rcases ha with ha | ha
    · exact ⟨false, by intro h; simp at h, .inr ha⟩
    · exact ⟨true, ready_of_nil ha, .inl rfl⟩
  refine ⟨decodedArea inner outer, ?_, samePositions_of hi.symm rfl rfl h1 rfl ?_⟩
  rotate_left
  · intro h
    simp only [decodedArea, h, Bool.false_eq_true, if_false]
    exact h2 h
  suffices h : GivesR all (message (.setupBindAreaOfInterest ⟨decodedArea inner outer, 0, 0⟩ auth)) rest
      (decodeSetupBindAreaOfInterest s getPrivy g) by
    obtain ⟨g', h3, -, h4⟩ := h
    exact ⟨g', h3, h4⟩
  unfold decodeSetupBindAreaOfInterest
  refine step_next hr hg (by simp) fun g1 r1 c1 l1 _ => ?_
  rw [step_byte (b := b) c1 (by omega) rfl, hh, hwd]
  refine step_next r1 c1 (by simp; omega) fun g2 r2 c2 l2 _ => ?_
  rw [step_compact (i := 1) (x := auth) (a := [b]) c2 rfl rfl rfl l2]
  refine step_prune (a := [b] ++ encodeIntMax64 auth.toNat) r2 c2 l2 (by rw [List.append_assoc]) (by simp; omega)
    fun g3 r3 c3 => ?_
  rw [hp]
  refine step_dec ((hdec all).2 ha g3 rest r3 c3 hs) fun g4 r4 c4 => ?_
  exact step_pure r4 c4

example : encodeSetupBindAreaOfInterest exSchemes exOuterArea ⟨{ exInner with times := ⟨200, 70000, false⟩ }, 0, 0⟩ 3 =
    .ok [0x28, 3, 0x20, 190, 1, 1, 1, 1, 2] ∧
    exInner.anySubspace = false ∧ exOuterArea.anySubspace = false ∧ exInner.subspace = exOuterArea.subspace ∧
    (200 : UInt64) - 10 < 256 ∧ (200 : UInt64) - 10 ≤ endOf exOuterArea.times - 200 ∧
    exOuterArea.times.openEnd = false ∧ getWidthMax32Int exSchemes.p.cl ≤ [0x30].length := by decide +kernel

/-- C72, partial: what is missing in a bind-area-of-interest message with limits is only the flag for limits in its
first byte: with a first byte that has it, and says how wide the handle is, the message comes back with its limits
under the conditions of `C72_areaOfInterest_partial`, if the limits fit the integers of the path scheme. The
encoder writes no such byte (`C72_violated_limits`). -/
theorem C72_limits_partial (s : Schemes) (ho : Decides BytesLt s.ordS) (outer inner : Area) (count size : UInt64) (getPrivy : UInt64 → Area) (auth : UInt64)
    (hauth : auth.toNat < 2 ^ s.p.bits) (hcount : count.toNat < 2 ^ s.p.bits) (hsize : size.toNat < 2 ^ s.p.bits)
    (hlim : ¬ (count = 0 ∧ size = 0)) (hp : getPrivy auth = outer) (hv : ShortPath s.p inner.path)
    (hi : inner.anySubspace = false) (hoa : outer.anySubspace = false) (hss : inner.subspace = outer.subspace)
    (hw : inner.times.start - outer.times.start < 256)
    (hstart : inner.times.start - outer.times.start ≤ endOf outer.times - inner.times.start)
    (hend : inner.times.openEnd = true ∨ outer.times.openEnd = false ∨
      endOf inner.times - inner.times.start ≤ endOf outer.times - endOf inner.times)
    (enc : Bytes) (h : encodeSetupBindAreaOfInterest s outer ⟨inner, count, size⟩ auth = .ok enc) (g : GB) (rest : Bytes)
    (flag : UInt8) (hflag : flag &&& 0x4 = 0x4) (hfw : 2 ^ (flag &&& 0x3).toNat = getWidthMax64Int auth.toNat)
    (hg : g.content = flag :: enc.tail ++ rest) (ha : (∀ c ∈ inner.path, c.length ≤ getWidthMax32Int s.p.cl) ∨ g.rest = [])
    (hs : getWidthMax32Int s.p.cl ≤ 3 + rest.length) :
    ∃ x, Gives (message (.setupBindAreaOfInterest ⟨x, count, size⟩ auth)) rest (decodeSetupBindAreaOfInterest s getPrivy g) ∧
      SamePositions x inner := by
  obtain ⟨area, b, l, he, hl1, hl2, rfl⟩ := encode_aoi_limits hlim h
  dsimp only at he hl1 hl2
  rw [conv_of_lt hcount] at hl1
  rw [conv_of_lt hsize] at hl2
  have hsame : isSubspaceSame s.ordS inner outer = true := by
    simp [isSubspaceSame, hi, hoa, hss, (ho.eq_iff _ _).2]
  rw [encodeAreaInArea_same (ss' := nilCodec) hsame] at he
  obtain ⟨h1, h2⟩ := decodedTimes hstart hend
  have hsd : startDiffOf inner outer = inner.times.start - outer.times.start := by
    unfold startDiffOf bigIntMin
    rw [if_neg (by simp only [UInt64.le_iff_toNat_le, UInt64.lt_iff_toNat_lt, gt_iff_lt] at *; omega)]
  have hdec := fun all => decodes_areaInArea nilCodec_lawful ho hv (fun h => by simp [hsame] at h) hi
    (by rw [hsd]; exact hw) he all
  rw [List.tail_cons, conv_of_lt hauth, conv_of_lt hcount, conv_of_lt hsize] at hg
  have hh : (0x4 &&& flag == 0x4) = true := by
    rw [UInt8.and_comm, hflag]; rfl
  have hwd : compactWidthFromEndOfByte flag = getWidthMax64Int auth.toNat := by
    rw [← hfw]
    unfold compactWidthFromEndOfByte
    have hlt : (flag &&& 0x3).toNat ≤ 3 := by
      rw [UInt8.toNat_and]; exact Nat.and_le_right
    have h2 : flag &&& 0x2 = (flag &&& 0x3) &&& 0x2 := by rw [UInt8.and_assoc]; rfl
    have h1 : flag &&& 0x1 = (flag &&& 0x3) &&& 0x1 := by rw [UInt8.and_assoc]; rfl
    rw [h1, h2]
    generalize flag &&& 0x3 = w at hlt
    have : w = 0 ∨ w = 1 ∨ w = 2 ∨ w = 3 := by
      have hw : w.toNat = 0 ∨ w.toNat = 1 ∨ w.toNat = 2 ∨ w.toNat = 3 := by omega
      rcases hw with h | h | h | h
      · exact .inl (UInt8.toNat_inj.1 h)
      · exact .inr (.inl (UInt8.toNat_inj.1 h))
      · exact .inr (.inr (.inl (UInt8.toNat_inj.1 h)))
      · exact .inr (.inr (.inr (UInt8.toNat_inj.1 h)))
    rcases this with rfl | rfl | rfl | rfl <;> rfl
  have hl := encodeIntMax64_length auth.toNat
  have hlc := encodeIntMax64_length count.toNat
  have hls := encodeIntMax64_length size.toNat
  have hpc : 0 < getWidthMax64Int count.toNat := by rcases width64 count.toNat with h | h | h | h <;> rw [h] <;> decide
  have hps : 0 < getWidthMax64Int size.toNat := by rcases width64 size.toNat with h | h | h | h <;> rw [h] <;> decide
  simp only [List.append_assoc, List.cons_append, List.nil_append] at hg
  obtain ⟨all, hr, ha⟩ : ∃ all, g.ready all ∧ PathArrives s.p all inner.path := by
    rcases ha with ha | ha
    · exact ⟨false, by intro h; simp at h, .inr ha⟩
    · exact ⟨true, ready_of_nil ha, .inl rfl⟩
  refine ⟨decodedArea inner outer, ?_, samePositions_of hi.symm rfl rfl h1 rfl ?_⟩
  rotate_left
  · intro h
    simp only [decodedArea, h, Bool.false_eq_true, if_false]
    exact h2 h
  suffices h : GivesR all (message (.setupBindAreaOfInterest ⟨decodedArea inner outer, count, size⟩ auth)) rest
      (decodeSetupBindAreaOfInterest s getPrivy g) by
    obtain ⟨g', h3, -, h4⟩ := h
    exact ⟨g', h3, h4⟩
  unfold decodeSetupBindAreaOfInterest
  refine step_next hr hg (by simp) fun g1 r1 c1 l1 _ => ?_
  rw [step_byte (b := flag) c1 (by omega) rfl, hh, hwd]
  refine step_next r1 c1 (by simp; omega) fun g2 r2 c2 l2 _ => ?_
  rw [step_compact (i := 1) (x := auth) (a := [flag]) c2 rfl rfl rfl l2]
  refine step_prune (a := [flag] ++ encodeIntMax64 auth.toNat) r2 c2 l2 (by rw [List.append_assoc]; rfl) (by simp; omega)
    fun g3 r3 c3 => ?_
  rw [hp]
  refine step_dec ((hdec all).2 ha g3 _ r3 c3 (by simp only [List.length_cons, List.length_append]; omega)) fun g4 r4 c4 => ?_
  simp only [Bool.not_true, Bool.false_eq_true, if_false]
  refine step_next r4 c4 (by simp) fun g5 r5 c5 l5 _ => ?_
  rw [step_byte (b := l) c5 (by omega) rfl, hl1, hl2]
  refine step_next r5 c5 (by simp; omega) fun g6 r6 c6 l6 _ => ?_
  rw [step_compact (i := 1) (x := count) (a := [l]) c6 rfl rfl rfl (by omega)]
  rw [step_compact (i := 1 + getWidthMax64Int count.toNat) (x := size) (a := [l] ++ encodeIntMax64 count.toNat)
    (b := rest) c6 (by simp) (by simp; omega) rfl (by omega)]
  refine step_prune (a := [l] ++ (encodeIntMax64 count.toNat ++ encodeIntMax64 size.toNat)) (b := rest) r6 c6 l6 (by simp)
    (by simp; omega) fun g7 r7 c7 => ?_
  exact step_pure r7 c7

example : encodeSetupBindAreaOfInterest exSchemes exOuterArea ⟨{ exInner with times := ⟨200, 70000, false⟩ }, 5, 300⟩ 3 =
    .ok [0x28, 3, 0x20, 190, 1, 1, 1, 1, 2, 0, 5, 44] ∧
    (decodeSetupBindAreaOfInterest exSchemes (fun _ => exOuterArea)
      ⟨[0x2c, 3, 0x20, 190, 1, 1, 1, 1, 2, 0, 5, 44], [], [], .exact⟩) =
      .ok (message (.setupBindAreaOfInterest ⟨{ exInner with times := ⟨200, 70000, false⟩ }, 5, 44⟩ 3),
        ⟨[], [], [], .exact⟩) := by decide +kernel

/-- C72 is violated: when the area and its outer area are not for the same subspace, the decoder
never returns. -/
theorem C72_violated_subspace (s : Schemes) (outer : Area) (getPrivy : UInt64 → Area) (aoi : AreaOfInterest)
    (auth : UInt64) (hauth : auth.toNat < 256 ∧ auth.toNat < 2 ^ s.p.bits)
    (hss : isSubspaceSame s.ordS aoi.area outer = false) (enc : Bytes)
    (h : encodeSetupBindAreaOfInterest s outer aoi auth = .ok enc) (g : GB) (rest : Bytes)
    (hg : g.content = enc ++ rest) (r : Msg × GB) : decodeSetupBindAreaOfInterest s getPrivy g ≠ .ok r := by
  intro hd
  obtain ⟨area, tail, v, he, hv, rfl, -⟩ := encode_aoi_inv h
  obtain ⟨rel, -, rfl⟩ := encodeAreaInArea_inv he
  rw [hss, conv_of_lt hauth.2] at hg
  have hw1 : getWidthMax64Int auth.toNat = 1 := by unfold getWidthMax64Int; rw [if_pos (by omega)]
  have hwd : compactWidthFromEndOfByte (byteOf (compactWidthOr 0x28 (getWidthMax64Int auth.toNat ||| v))) = 1 := by
    rw [hw1]; rcases hv with rfl | rfl <;> decide
  generalize byteOf (compactWidthOr 0x28 _) = b at hwd hg
  have hl := encodeIntMax64_length auth.toNat
  simp only [List.append_assoc, List.cons_append, List.nil_append] at hg
  have hfl := (areaFlags_fields (!false) aoi.area.times.openEnd
    (decide (startDiffOf aoi.area outer = aoi.area.times.start - outer.times.start))
    (decide (endDiffOf aoi.area outer = endOf aoi.area.times - aoi.area.times.start))
    (width64 (startDiffOf aoi.area outer).toNat) (width64 (endDiffOf aoi.area outer).toNat)).1
  generalize areaFlags _ _ _ _ _ _ = fl at hfl hg
  unfold decodeSetupBindAreaOfInterest at hd
  obtain ⟨g1, m1, c1, l1, hd⟩ := inv_next hg hd
  rw [step_byte (b := b) c1 (by omega) rfl, hwd] at hd
  obtain ⟨g2, m2, c2, l2, hd⟩ := inv_next c1 hd
  rw [step_compact (i := 1) (x := auth) (a := [b]) c2 rfl rfl hw1.symm l2] at hd
  obtain ⟨g3, m3, c3, hd⟩ := inv_prune (a := [b] ++ encodeIntMax64 auth.toNat) c2 l2 (by rw [List.append_assoc]; rfl) (by simp; omega) hd
  obtain ⟨x, g4, hd, -⟩ := Dec.bind_ok.1 hd
  unfold decodeStreamAreaInArea at hd
  obtain ⟨f, g5, hf, hd⟩ := Dec.bind_ok.1 hd
  rw [peekByte_head c3 hf] at hd
  rw [hfl] at hd
  obtain ⟨_, _, _, hd⟩ := Dec.bind_ok.1 hd
  split at hd
  · obtain ⟨_, _, _, hd⟩ := Dec.bind_ok.1 hd
    obtain ⟨_, _, _, hd⟩ := Dec.bind_ok.1 hd
    obtain ⟨_, _, hd, _⟩ := Dec.bind_ok.1 hd
    cases hd
  · obtain ⟨_, _, _, hd⟩ := Dec.bind_ok.1 hd
    obtain ⟨_, _, _, hd⟩ := Dec.bind_ok.1 hd
    obtain ⟨_, _, _, hd⟩ := Dec.bind_ok.1 hd
    obtain ⟨_, _, hd, _⟩ := Dec.bind_ok.1 hd
    cases hd

example : isSubspaceSame exSchemes.ordS exInner { exOuterArea with anySubspace := true } = false ∧
    encodeSetupBindAreaOfInterest exSchemes { exOuterArea with anySubspace := true }
      ⟨{ exInner with times := ⟨200, 70000, false⟩ }, 0, 0⟩ 3 = .ok [0x28, 3, 0xa0, 190, 1, 1, 1, 1, 2, 7] := by
  decide +kernel

/-! ## C73 -/

/-- C73 for bind-fragment messages. -/
theorem C73_bindFragment_partial (s : Schemes) (v : Bytes → Prop) (hc : s.groupMember.Lawful v) (groupMember : Bytes)
    (h : v groupMember) (isSecondary : Bool) :
    RoundTrips (decodePaiBindFragment s) (encodePaiBindFragment s groupMember isSecondary)
      (message (.paiBindFragment groupMember isSecondary)) := by
  refine roundTrips_of_reads fun g rest hr hg => ?_
  unfold encodePaiBindFragment at hg
  rw [List.append_assoc] at hg
  have hb : ((if isSecondary then 6 else 4 : UInt8) == 0x6) = isSecondary := by cases isSecondary <;> decide
  generalize (if isSecondary then 6 else 4 : UInt8) = b at hb hg
  unfold decodePaiBindFragment
  refine step_next hr hg (by simp) fun g1 r1 c1 l1 _ => ?_
  rw [step_byte (b := b) c1 (by omega) rfl, hb]
  refine step_prune (a := [b]) r1 c1 l1 rfl rfl fun g2 r2 c2 => ?_
  refine step_codec hc h r2 c2 fun g3 r3 c3 => ?_
  exact step_pure r3 c3

example : encodePaiBindFragment exSchemes [1, 2] true = [6, 1, 2] ∧ encodePaiBindFragment exSchemes [1, 2] false = [4, 1, 2] :=
  by decide

/-- C73, partial: a reply-fragment message round-trips for handle 1 when everything has
arrived. -/
theorem C73_replyFragment_partial (s : Schemes) (v : Bytes → Prop) (hc : s.groupMember.Lawful v) (groupMember : Bytes)
    (h : v groupMember) :
    RoundTripsArrived (decodePaiReplyFragment s) (encodePaiReplyFragment s 1 groupMember)
      (message (.paiReplyFragment 1 groupMember)) := by
  intro g rest hr hg
  suffices h : GivesR true (message (.paiReplyFragment 1 groupMember)) rest (decodePaiReplyFragment s g) by
    obtain ⟨g', h3, -, h4⟩ := h
    exact ⟨g', h3, h4⟩
  have hg : g.content = [0x8, 1] ++ (s.groupMember.enc groupMember ++ rest) := hg
  unfold decodePaiReplyFragment
  refine step_next (ready_of_nil hr) hg (by simp) fun g1 r1 c1 l1 e1 => ?_
  rw [step_byte (b := 0x8) c1 (by omega) rfl, show compactWidthFromEndOfByte 0x8 = 1 from rfl]
  have hl : 1 + 1 ≤ g1.buf.length := by rw [e1 rfl]; simp
  rw [step_compact (i := 1) (w := 1) (x := 1) (a := [0x8]) c1 rfl rfl rfl hl]
  refine step_prune (a := [0x8, 1]) r1 c1 hl rfl rfl fun g2 r2 c2 => ?_
  refine step_codec hc h r2 c2 fun g3 r3 c3 => ?_
  exact step_pure r3 c3

example : encodePaiReplyFragment exSchemes 1 [5, 6] = [8, 1, 5, 6] ∧ (⟨[8, 1, 5, 6], [], [], .exact⟩ : GB).rest = [] := by decide

/-- C73, partial: the same for request-subspace-capability messages. -/
theorem C73_requestSubspaceCapability_partial :
    RoundTripsArrived decodePaiRequestSubspaceCapability (encodePaiRequestSubspaceCapability 1)
      (message (.paiRequestSubspaceCapability 1)) := by
  intro g rest hr hg
  suffices h : GivesR true (message (.paiRequestSubspaceCapability 1)) rest (decodePaiRequestSubspaceCapability g) by
    obtain ⟨g', h3, -, h4⟩ := h
    exact ⟨g', h3, h4⟩
  have hg : g.content = [0xc, 1] ++ rest := hg
  unfold decodePaiRequestSubspaceCapability
  refine step_next (ready_of_nil hr) hg (by simp) fun g1 r1 c1 l1 e1 => ?_
  rw [step_byte (b := 0xc) c1 (by omega) rfl, show compactWidthFromEndOfByte 0xc = 1 from rfl]
  have hl : 1 + 1 ≤ g1.buf.length := by rw [e1 rfl]; simp
  rw [step_compact (i := 1) (w := 1) (x := 1) (a := [0xc]) c1 rfl rfl rfl hl]
  exact step_prune (a := [0xc, 1]) r1 c1 hl rfl rfl fun g2 r2 c2 => step_pure r2 c2

example : encodePaiRequestSubspaceCapability 1 = [0xc, 1] := by decide

/-- C73, partial: the same for reply-subspace-capability messages. -/
theorem C73_replySubspaceCapability_partial (s : Schemes) (vc vg : Bytes → Prop) (hc : s.subspaceCap.Lawful vc)
    (hs : s.subspaceSig.Lawful vg) (capability signature : Bytes) (h1 : vc capability) (h2 : vg signature) :
    RoundTripsArrived (decodePaiReplySubspaceCapability s) (encodePaiReplySubspaceCapability s 1 capability signature)
      (message (.paiReplySubspaceCapability 1 capability signature)) := by
  intro g rest hr hg
  suffices h : GivesR true (message (.paiReplySubspaceCapability 1 capability signature)) rest
      (decodePaiReplySubspaceCapability s g) by
    obtain ⟨g', h3, -, h4⟩ := h
    exact ⟨g', h3, h4⟩
  have hg : g.content = [0x10, 1] ++ (s.subspaceCap.enc capability ++ (s.subspaceSig.enc signature ++ rest)) := by
    rw [hg]
    unfold encodePaiReplySubspaceCapability
    simp only [List.append_assoc]
    rfl
  unfold decodePaiReplySubspaceCapability
  refine step_next (ready_of_nil hr) hg (by simp) fun g1 r1 c1 l1 e1 => ?_
  rw [step_byte (b := 0x10) c1 (by omega) rfl, show compactWidthFromEndOfByte 0x10 = 1 from rfl]
  have hl : 1 + 1 ≤ g1.buf.length := by rw [e1 rfl]; simp
  rw [step_compact (i := 1) (w := 1) (x := 1) (a := [0x10]) c1 rfl rfl rfl hl]
  refine step_prune (a := [0x10, 1]) r1 c1 hl rfl rfl fun g2 r2 c2 => ?_
  refine step_codec hc h1 r2 c2 fun g3 r3 c3 => ?_
  refine step_codec hs h2 r3 c3 fun g4 r4 c4 => ?_
  exact step_pure r4 c4

example : encodePaiReplySubspaceCapability exSchemes 1 [5, 6] [7, 8] = [0x10, 1, 5, 6, 7, 8] := by decide

/-- C73 is violated: a message with handle 1 crashes the decoder when only its first byte has
arrived, or, if the array has room, is taken for one with handle 0, and its second byte for the next message. -/
theorem C73_violated_chunks (m : Mem) :
    (⟨[0xc], [[1]], [], m⟩ : GB).content = encodePaiRequestSubspaceCapability 1 ∧
    decodePaiRequestSubspaceCapability ⟨[0xc], [[1]], [], m⟩ =
      if 0 < m.spare then .ok (message (.paiRequestSubspaceCapability 0), ⟨[], [[1]], [], ⟨0, m.room⟩⟩) else .crash := by
  refine ⟨rfl, ?_⟩
  obtain ⟨spare, room⟩ := m
  show (compactAt [0xc] 1 1 >>= _) _ = _
  cases spare with
  | zero => rfl
  | succ n =>
    rw [if_pos (Nat.succ_pos _)]
    have : compactAt [0xc] 1 1 ⟨[0xc], [[1]], [], ⟨n + 1, room⟩⟩ = .ok (0, ⟨[0xc], [[1]], [], ⟨n + 1, room⟩⟩) := by
      unfold compactAt
      rw [Dec.bind_apply, sliceArray, if_pos ⟨by decide, by simp; omega⟩]
      rfl
    show (compactAt [0xc] 1 1 >>= _) ⟨[0xc], [[1]], [], ⟨n + 1, room⟩⟩ = _
    rw [Dec.bind_apply, this]
    rfl

example : (⟨0, []⟩ : Mem) = .exact ∧ 0 < (⟨7, []⟩ : Mem).spare := by decide

/-- C73 is violated: no request-subspace-capability message with a handle other than 1
round-trips, if the arrays have no room beyond their bytes. (If they have, a handle such as 512 happens to come
back.) -/
theorem C73_violated_requestSubspaceCapability (handle : UInt64) (hh : handle ≠ 1) (g : GB) (hm : g.mem = .exact) (rest : Bytes)
    (hg : g.content = encodePaiRequestSubspaceCapability handle ++ rest) :
    ¬ Gives (message (.paiRequestSubspaceCapability handle)) rest (decodePaiRequestSubspaceCapability g) := by
  rintro ⟨g', hd, hc⟩
  have hlen := congrArg List.length hg
  obtain ⟨v, g1, h1, h2, h3⟩ := pai_handle
    (width_widthHeader (n := handle.toNat) (h1 := 0xc) (h2 := 0xd) (h4 := 0xe) (h8 := 0xf) rfl rfl rfl rfl) hm hg hd
  simp only [Dec.pure_apply, Res.ok.injEq, Prod.mk.injEq, message, Msg.mk.injEq,
    Body.paiRequestSubspaceCapability.injEq] at h1
  have e1 : g1.content.length = rest.length := by rw [h1.2, hc]
  have hw : getWidthMax64Int handle.toNat = 1 := by
    simp [encodePaiRequestSubspaceCapability] at hlen
    omega
  exact pai_handle_one hh hw (h3 hw) h1.1.2

example : encodePaiRequestSubspaceCapability 300 = [0xd, 2] ∧ encodePaiRequestSubspaceCapability 7 = [0xc, 1] := by decide

/-- C73 is violated: with group members of a fixed length, no reply-fragment message with a
handle other than 1 round-trips, if the arrays have no room beyond their bytes. -/
theorem C73_violated_replyFragment (s : Schemes) (n : Nat) (hs : s.groupMember = fixedCodec n) (groupMember : Bytes)
    (hn : groupMember.length = n) (handle : UInt64) (hh : handle ≠ 1) (g : GB) (hm : g.mem = .exact) (rest : Bytes)
    (hg : g.content = encodePaiReplyFragment s handle groupMember ++ rest) :
    ¬ Gives (message (.paiReplyFragment handle groupMember)) rest (decodePaiReplyFragment s g) := by
  rintro ⟨g', hd, hc⟩
  have hlen := congrArg List.length hg
  obtain ⟨v, g1, h1, h2, h3⟩ := pai_handle
    (width_widthHeader (n := handle.toNat) (h1 := 0x8) (h2 := 0x9) (h4 := 0xa) (h8 := 0xb) rfl rfl rfl rfl) hm hg hd
  obtain ⟨x, g2, h4, h1⟩ := Dec.bind_ok.1 h1
  rw [hs] at h4
  have h5 := fixedCodec_length h4
  simp only [Dec.pure_apply, Res.ok.injEq, Prod.mk.injEq, message, Msg.mk.injEq, Body.paiReplyFragment.injEq] at h1
  have e1 : g2.content.length = rest.length := by rw [h1.2, hc]
  have hw : getWidthMax64Int handle.toNat = 1 := by
    simp [encodePaiReplyFragment, hs, fixedCodec] at hlen
    omega
  exact pai_handle_one hh hw (h3 hw) h1.1.2.1

example : encodePaiReplyFragment exSchemes 300 [5, 6] = [9, 2, 5, 6] ∧ exSchemes.groupMember = fixedCodec 2 :=
  ⟨by decide, rfl⟩

/-- C73 is violated: with capabilities and signatures of fixed lengths, no
reply-subspace-capability message with a handle other than 1 round-trips, if the arrays have no room beyond their
bytes. -/
theorem C73_violated_replySubspaceCapability (s : Schemes) (n k : Nat) (hs : s.subspaceCap = fixedCodec n)
    (hs' : s.subspaceSig = fixedCodec k) (capability signature : Bytes) (hn : capability.length = n)
    (hk : signature.length = k) (handle : UInt64) (hh : handle ≠ 1) (g : GB) (hm : g.mem = .exact) (rest : Bytes)
    (hg : g.content = encodePaiReplySubspaceCapability s handle capability signature ++ rest) :
    ¬ Gives (message (.paiReplySubspaceCapability handle capability signature)) rest
      (decodePaiReplySubspaceCapability s g) := by
  rintro ⟨g', hd, hc⟩
  have hlen := congrArg List.length hg
  unfold encodePaiReplySubspaceCapability at hg
  simp only [List.append_assoc] at hg
  obtain ⟨v, g1, h1, h2, h3⟩ := pai_handle
    (width_widthHeader (n := handle.toNat) (h1 := 0x10) (h2 := 0x11) (h4 := 0x12) (h8 := 0x13) rfl rfl rfl rfl) hm hg hd
  obtain ⟨x, g2, h4, h1⟩ := Dec.bind_ok.1 h1
  obtain ⟨y, g3, h6, h1⟩ := Dec.bind_ok.1 h1
  rw [hs] at h4
  rw [hs'] at h6
  have h5 := fixedCodec_length h4
  have h7 := fixedCodec_length h6
  simp only [Dec.pure_apply, Res.ok.injEq, Prod.mk.injEq, message, Msg.mk.injEq,
    Body.paiReplySubspaceCapability.injEq] at h1
  have e1 : g3.content.length = rest.length := by rw [h1.2, hc]
  have hw : getWidthMax64Int handle.toNat = 1 := by
    simp [encodePaiReplySubspaceCapability, hs, hs', fixedCodec] at hlen
    omega
  exact pai_handle_one hh hw (h3 hw) h1.1.2.1

example : encodePaiReplySubspaceCapability exSchemes 300 [5, 6] [7, 8] = [0x11, 2, 5, 6, 7, 8] := by decide

/-- C73, partial: a commitment-reveal message is decoded if it has a header byte, whichever. Missing: the
encoder writes none (`C73_violated_commitmentReveal`). -/
theorem C73_commitmentReveal_partial (header : UInt8) (nonce : Bytes) :
    RoundTrips (decodeCommitmentReveal nonce.length) (header :: nonce) (message (.commitmentReveal nonce)) := by
  refine roundTrips_of_reads fun g rest hr hg => ?_
  unfold decodeCommitmentReveal
  refine step_next hr hg (by simp; omega) fun g1 r1 c1 l1 e1 => ?_
  refine step_prune (a := header :: nonce) r1 c1 l1 rfl (by simp; omega) fun g2 r2 c2 => ?_
  have hbuf : (g1.buf.drop 1).take nonce.length = nonce := by
    have h1 : g1.buf ++ g1.rest.flatten = header :: nonce ++ rest := c1
    have h2 : (g1.buf.drop 1 ++ g1.rest.flatten).take nonce.length = nonce := by
      rw [← List.drop_append_of_le_length (by omega), h1]
      simp
    rw [← h2, List.take_append_of_le_length (by simp; omega)]
    simp
  have hs : slice g1.buf 1 (1 + nonce.length) = .ok nonce := by
    unfold slice
    rw [if_pos ⟨by omega, l1⟩, Nat.add_sub_cancel_left, hbuf]
  rw [Dec.bind_apply, sliceArray_ok hs]
  exact step_pure r2 c2

example : Gives (message (.commitmentReveal [5, 6, 7])) [9] (decodeCommitmentReveal 3 ⟨[0xa0], [[5], [6, 7, 9]], [1], .exact⟩) :=
  C73_commitmentReveal_partial 0xa0 [5, 6, 7] ⟨[0xa0], [[5], [6, 7, 9]], [1], .exact⟩ [9] rfl

/-- C73 is violated: no commitment-reveal message round-trips, as the encoder writes no header
byte. -/
theorem C73_violated_commitmentReveal (nonce : Bytes) (g : GB) (rest : Bytes)
    (hg : g.content = encodeCommitmentReveal nonce ++ rest) :
    ¬ Gives (message (.commitmentReveal nonce)) rest (decodeCommitmentReveal nonce.length g) := by
  rintro ⟨g', hd, hc⟩
  unfold decodeCommitmentReveal at hd
  obtain ⟨g1, m1, c1, l1, hd⟩ := inv_next hg hd
  obtain ⟨_, g2, h2, hd⟩ := Dec.bind_ok.1 hd
  obtain ⟨x, g3, h3, h4⟩ := Dec.bind_ok.1 hd
  obtain rfl := sliceArray_same h3
  simp only [Dec.pure_apply, Res.ok.injEq, Prod.mk.injEq] at h4
  have hp : (.ok ((), g1.pruned (1 + nonce.length)) : Res (Unit × GB)) = .ok (_, g3) := h2
  simp only [Res.ok.injEq, Prod.mk.injEq, true_and] at hp
  have e1 : g3.content.length = rest.length := by rw [h4.2, hc]
  have e2 : g1.content.length = nonce.length + rest.length := by rw [c1, encodeCommitmentReveal, List.length_append]
  rw [← hp] at e1
  simp only [GB.content, GB.pruned_buf, GB.pruned_rest, List.length_append, List.length_drop] at e1 e2
  omega

example : encodeCommitmentReveal [1, 2, 3] = [1, 2, 3] := rfl

end Willow.Props
