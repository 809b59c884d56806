import Verif.Lemmas.PropsRelativeAreas
import Verif.Props.Relative
import Verif.Props.Encoding

/-! Property theorems C28-C29: encodings of an area relative to an area. -/

namespace Willow.Props
open Willow Spec

/-- Every position of `inner` is in `outer`. -/
def AreaInside (inner outer : Area) : Prop := ∀ x, InArea inner x → InArea outer x

/-! ## C28 -/

/-- C28 is violated: two areas for any subspace. The decoded area is for one subspace only. -/
theorem C28_violated_any : ∃ inner outer enc x, AreaInside inner outer ∧
    encodeAreaInArea (fixedCodec 1) orderSubspace tinyParams inner outer = .ok enc ∧
    decodeAreaInArea (fixedCodec 1) tinyParams enc outer = .ok x ∧ ¬ SamePositions x inner := by
  refine ⟨⟨[], true, [[1], [2]], ⟨1, 5, false⟩⟩, ⟨[], true, [[1]], ⟨0, 9, false⟩⟩, _, _,
    areaIsIncluded_sound decides_subspace _ _ (by decide), rfl, rfl, ?_⟩
  intro h
  have := h ⟨[7], [[1], [2]], 1⟩
  rw [← isIncludedArea_iff decides_subspace, ← isIncludedArea_iff decides_subspace] at this
  revert this
  decide

/-- C28 is violated: an area for one subspace in an area for any. The position of the
subspace id is miscalculated (the path length is, see C20), so another subspace is decoded. -/
theorem C28_violated_subspace : ∃ inner outer enc x, AreaInside inner outer ∧
    encodeAreaInArea (fixedCodec 1) orderSubspace tinyParams inner outer = .ok enc ∧
    decodeAreaInArea (fixedCodec 1) tinyParams enc outer = .ok x ∧ ¬ SamePositions x inner := by
  refine ⟨⟨[7], false, [[1], [2]], ⟨1, 5, false⟩⟩, ⟨[], true, [[1]], ⟨0, 9, false⟩⟩, _, _,
    areaIsIncluded_sound decides_subspace _ _ (by decide), rfl, rfl, ?_⟩
  intro h
  have := h ⟨[7], [[1], [2]], 1⟩
  rw [← isIncludedArea_iff decides_subspace, ← isIncludedArea_iff decides_subspace] at this
  revert this
  decide

/-- C28 is violated: a subspace id that cannot be decoded is not noticed; the area that is returned is
for the subspace with the empty name. -/
theorem C28_violated_undecodable (ss : Codec) (tail : Bytes) (h : ss.dec (0 :: tail) = .err) :
    decodeAreaInArea ss tinyParams ([0xe0, 1, 1, 0] ++ tail) ⟨[], true, [[1]], ⟨5, 0, true⟩⟩ =
      .ok ⟨[], false, [[1]], ⟨6, reallyBigInt, true⟩⟩ := by
  have hr : decodeRelativePath tinyParams (1 :: 0 :: tail) [[1]] = .ok [[1]] := by
    have h0 : slice (1 :: 0 :: tail) 0 1 = .ok [1] := by simp [slice]
    have h1 : sliceFrom (1 :: 0 :: tail) 1 = .ok (0 :: tail) := by simp [sliceFrom, slice]
    have h2 : slice (0 :: tail) 0 1 = .ok [0] := by simp [slice]
    have hw : getWidthMax32Int tinyParams.cc = 1 := by decide
    have hd : decodePath tinyParams (0 :: tail) = .ok (1, []) := by
      simp only [decodePath, hw, h2, Res.ok_bind]
      rfl
    simp only [decodeRelativePath, hw, h0, h1, Res.ok_bind]
    rfl
  have hl : encodePathRelativeLength tinyParams [[1]] [[1]] = .ok 1 := by decide
  have hs : slice (0xe0 :: 1 :: 1 :: 0 :: tail) 1 2 = .ok [1] := by simp [slice]
  have h2 : sliceFrom (0xe0 :: 1 :: 1 :: 0 :: tail) 2 = .ok (1 :: 0 :: tail) := by simp [sliceFrom, slice]
  have h3 : sliceFrom (0xe0 :: 1 :: 1 :: 0 :: tail) 3 = .ok (0 :: tail) := by simp [sliceFrom, slice]
  have hw : 2 ^ ((0x3 : UInt8) &&& ((0xe0 : UInt8) >>> 2)).toNat = 1 := by decide
  simp only [decodeAreaInArea, List.cons_append, List.nil_append, Res.ok_bind, hw, Nat.reduceAdd, hs, h2, hr, hl, h3, h]
  rfl

example : ({ fixedCodec 1 with dec := fun b => if b = [0] then .err else .ok b } : Codec).dec [0] = .err := by decide

/-- C28 is violated: a start measured from the end of the outer range is taken from its start. -/
theorem C28_violated_time : ∃ inner outer enc x, AreaInside inner outer ∧
    encodeAreaInArea (fixedCodec 1) orderSubspace tinyParams inner outer = .ok enc ∧
    decodeAreaInArea (fixedCodec 1) tinyParams enc outer = .ok x ∧ ¬ SamePositions x inner := by
  refine ⟨⟨[7], false, [[1], [2]], ⟨7, 9, false⟩⟩, ⟨[7], false, [[1]], ⟨0, 9, false⟩⟩, _, _,
    areaIsIncluded_sound decides_subspace _ _ (by decide), rfl, rfl, ?_⟩
  intro h
  have := h ⟨[7], [[1], [2]], 7⟩
  rw [← isIncludedArea_iff decides_subspace, ← isIncludedArea_iff decides_subspace] at this
  revert this
  decide

/-- C28 is violated: an end measured from the number that stands for no end is taken from the
meaningless end of the open outer range. -/
theorem C28_violated_open : ∃ inner outer enc x, AreaInside inner outer ∧
    encodeAreaInArea (fixedCodec 1) orderSubspace tinyParams inner outer = .ok enc ∧
    decodeAreaInArea (fixedCodec 1) tinyParams enc outer = .ok x ∧ ¬ SamePositions x inner := by
  refine ⟨⟨[7], false, [[1], [2]], ⟨0, 18446744073709551600, false⟩⟩, ⟨[7], false, [[1]], ⟨0, 0, true⟩⟩, _, _,
    areaIsIncluded_sound decides_subspace _ _ (by decide), rfl, rfl, ?_⟩
  intro h
  have := h ⟨[7], [[1], [2]], 18446744073709551600⟩
  rw [← isIncludedArea_iff decides_subspace, ← isIncludedArea_iff decides_subspace] at this
  revert this
  decide

/-- C28 is violated: nothing can be encoded relative to an area with the empty path, for
instance relative to a full area. -/
theorem C28_violated_crash (ss : Codec) (ordS : Bytes → Bytes → Ordering) (p : PathParams) (inner outer : Area)
    (h : outer.path = []) : encodeAreaInArea ss ordS p inner outer = .crash := by
  have : encodeRelativePath p inner.path [] = .crash := by
    cases inner.path <;> simp [encodeRelativePath, commonPrefix, commonPrefixIndex]
  unfold encodeAreaInArea
  rw [h, this]
  rfl

example : fullArea.path = [] := rfl

/-- C28 is violated for every area whose start is nearer to the end of the outer range: the
decoded start is never right. -/
theorem C28_violated_start (ss : Codec) (ordS : Bytes → Bytes → Ordering) (p : PathParams) (inner outer x : Area) (enc : Bytes) (hv : ShortPath p inner.path)
    (hsame : isSubspaceSame ordS inner outer = true)
    (h1 : endOf outer.times - inner.times.start < inner.times.start - outer.times.start)
    (h2 : outer.times.start ≠ endOf outer.times)
    (he : encodeAreaInArea ss ordS p inner outer = .ok enc) (hd : decodeAreaInArea ss p enc outer = .ok x) :
    x.times.start ≠ inner.times.start := by
  rw [decodeAreaInArea_encode hv hsame he, Res.ok.injEq] at hd
  rw [← hd]
  have hs : startDiffOf inner outer = endOf outer.times - inner.times.start := by
    unfold startDiffOf bigIntMin; rw [if_pos h1]
  have hne : endOf outer.times - inner.times.start ≠ inner.times.start - outer.times.start := by
    intro h; rw [h] at h1; exact absurd h1 (by simp)
  simp only [decodedStart, hs, hne, if_false]
  intro h
  apply h2
  grind

example : isSubspaceSame orderSubspace ⟨[7], false, [[1], [2]], ⟨7, 9, false⟩⟩ ⟨[7], false, [[1]], ⟨0, 9, false⟩⟩ = true ∧
    endOf ⟨0, 9, false⟩ - 7 < 7 - 0 ∧ (0 : UInt64) ≠ endOf ⟨0, 9, false⟩ := by decide

/-- C28 is violated for all areas for any subspace: whatever the bytes, neither decoder ever returns such an area, so what
is returned does not have the positions of the inner area (if it has any). -/
theorem C28_violated_never (ss : Codec) (p : PathParams) (inner outer x : Area) (hany : inner.anySubspace = true)
    (hpos : ∃ pos, InArea inner pos)
    (hx : (∃ enc, decodeAreaInArea ss p enc outer = .ok x) ∨ ∃ g g', decodeStreamAreaInArea ss p outer g = .ok (x, g')) :
    ¬ SamePositions x inner := by
  have hnot : x.anySubspace = false := by
    rcases hx with ⟨enc, hx⟩ | ⟨g, g', hx⟩
    · unfold decodeAreaInArea at hx
      obtain ⟨flags, -, hx⟩ := Res.bind_eq_ok.1 hx
      dsimp only at hx
      split at hx
      · obtain ⟨_, -, hx⟩ := Res.bind_eq_ok.1 hx
        obtain ⟨_, -, hx⟩ := Res.bind_eq_ok.1 hx
        obtain ⟨_, -, hx⟩ := Res.bind_eq_ok.1 hx
        obtain ⟨_, -, hx⟩ := Res.bind_eq_ok.1 hx
        obtain ⟨_, -, hx⟩ := Res.bind_eq_ok.1 hx
        obtain ⟨_, -, hx⟩ := Res.bind_eq_ok.1 hx
        cases hx
        rfl
      · obtain ⟨_, -, hx⟩ := Res.bind_eq_ok.1 hx
        obtain ⟨_, -, hx⟩ := Res.bind_eq_ok.1 hx
        obtain ⟨_, -, hx⟩ := Res.bind_eq_ok.1 hx
        obtain ⟨_, -, hx⟩ := Res.bind_eq_ok.1 hx
        obtain ⟨_, -, hx⟩ := Res.bind_eq_ok.1 hx
        obtain ⟨_, -, hx⟩ := Res.bind_eq_ok.1 hx
        obtain ⟨_, -, hx⟩ := Res.bind_eq_ok.1 hx
        obtain ⟨_, -, hx⟩ := Res.bind_eq_ok.1 hx
        cases hx
        rfl
    · unfold decodeStreamAreaInArea at hx
      obtain ⟨flags, g1, -, hx⟩ := Dec.bind_ok.1 hx
      obtain ⟨_, g2, -, hx⟩ := Dec.bind_ok.1 hx
      split at hx
      · obtain ⟨_, g3, -, hx⟩ := Dec.bind_ok.1 hx
        obtain ⟨_, g4, -, hx⟩ := Dec.bind_ok.1 hx
        obtain ⟨_, g5, -, hx⟩ := Dec.bind_ok.1 hx
        cases hx
        rfl
      · obtain ⟨_, g3, -, hx⟩ := Dec.bind_ok.1 hx
        obtain ⟨_, g4, -, hx⟩ := Dec.bind_ok.1 hx
        obtain ⟨_, g5, -, hx⟩ := Dec.bind_ok.1 hx
        obtain ⟨_, g6, -, hx⟩ := Dec.bind_ok.1 hx
        cases hx
        rfl
  intro hsame
  obtain ⟨pos, hp⟩ := hpos
  have := (hsame ⟨0 :: x.subspace, pos.path, pos.time⟩).2 ⟨.inl hany, hp.2⟩
  rcases this.1 with h | h
  · rw [hnot] at h; cases h
  · have := congrArg List.length h
    simp at this

example : ∃ inner outer enc x, inner.anySubspace = true ∧ encodeAreaInArea (fixedCodec 1) orderSubspace tinyParams inner outer = .ok enc ∧
    decodeAreaInArea (fixedCodec 1) tinyParams enc outer = .ok x ∧ AreaInside inner outer :=
  ⟨⟨[7], true, [[1], [2]], ⟨5, 9, false⟩⟩, ⟨[], true, [[1]], ⟨0, 100, false⟩⟩, _, _, rfl, rfl, rfl, areaIsIncluded_sound decides_subspace _ _ (by decide)⟩

/-- C28 is violated for all areas in an outer area without an end, if their end is nearer to the number that stands for no
end than to their start: the decoded end is wrong, unless that number is in the end field of the outer area. -/
theorem C28_violated_end (ss : Codec) (ordS : Bytes → Bytes → Ordering) (p : PathParams) (inner outer x : Area) (enc : Bytes)
    (hv : ShortPath p inner.path) (hsame : isSubspaceSame ordS inner outer = true)
    (hi : inner.times.openEnd = false) (ho : outer.times.openEnd = true) (hfield : outer.times.stop ≠ reallyBigInt)
    (h1 : reallyBigInt - inner.times.stop < inner.times.stop - inner.times.start)
    (he : encodeAreaInArea ss ordS p inner outer = .ok enc) (hd : decodeAreaInArea ss p enc outer = .ok x) :
    x.times.stop ≠ inner.times.stop := by
  rw [decodeAreaInArea_encode hv hsame he, Res.ok.injEq] at hd
  rw [← hd]
  have hie : endOf inner.times = inner.times.stop := by simp [endOf, hi]
  have hoe : endOf outer.times = reallyBigInt := by simp [endOf, ho]
  have hs : endDiffOf inner outer = reallyBigInt - inner.times.stop := by
    unfold endDiffOf bigIntMin; rw [hie, hoe, if_pos h1]
  have hne : reallyBigInt - inner.times.stop ≠ inner.times.stop - inner.times.start := by
    intro h; rw [h] at h1; exact absurd h1 (by simp)
  simp only [decodedStop, hs, hie, hne, if_false, hi, Bool.false_eq_true]
  intro h
  apply hfield
  clear hs hoe h1 hne hie hd he
  generalize reallyBigInt = R at h ⊢
  rw [← UInt64.sub_add_cancel outer.times.stop (R - inner.times.stop), h, UInt64.add_comm, UInt64.sub_add_cancel]

example : isSubspaceSame orderSubspace ⟨[7], false, [[1], [2]], ⟨5, reallyBigInt - 1, false⟩⟩ ⟨[7], false, [[1]], ⟨0, 0, true⟩⟩ = true ∧
    (0 : UInt64) ≠ reallyBigInt ∧ reallyBigInt - (reallyBigInt - 1) < (reallyBigInt - 1) - 5 := by decide

/-- C28, partial: the round trip for areas of the same subspace whose paths share their first
component, when the start is at least as near to the start of the outer range as to its end
and the end is not measured from a missing end. Missing: all other cases (see the
violations). -/
theorem C28_partial (ss : Codec) (ordS : Bytes → Bytes → Ordering) (ho : Decides BytesLt ordS) (p : PathParams) (inner outer : Area) (hv : ShortPath p inner.path)
    (hi : inner.anySubspace = false) (hoa : outer.anySubspace = false) (hss : inner.subspace = outer.subspace)
    (hsh : ∃ c, inner.path.head? = some c ∧ outer.path.head? = some c)
    (hstart : inner.times.start - outer.times.start ≤ endOf outer.times - inner.times.start)
    (hend : inner.times.openEnd = true ∨ outer.times.openEnd = false ∨
      endOf inner.times - inner.times.start ≤ endOf outer.times - endOf inner.times) :
    ∃ enc x, encodeAreaInArea ss ordS p inner outer = .ok enc ∧ decodeAreaInArea ss p enc outer = .ok x ∧
      SamePositions x inner := by
  obtain ⟨rel, hrel⟩ := encodeRelativePath_ok (p := p) hsh
  obtain ⟨enc, he⟩ : ∃ enc, encodeAreaInArea ss ordS p inner outer = .ok enc := by
    unfold encodeAreaInArea
    simp only [hrel, Res.ok_bind]
    exact ⟨_, rfl⟩
  have hsame : isSubspaceSame ordS inner outer = true := by
    simp [isSubspaceSame, hi, hoa, hss, (ho.eq_iff _ _).2]
  obtain ⟨h1, h2⟩ := decodedTimes hstart hend
  refine ⟨enc, _, he, decodeAreaInArea_encode hv hsame he, samePositions_of hi.symm hss.symm rfl h1 rfl ?_⟩
  intro h
  simp only [h, Bool.false_eq_true, if_false]
  exact h2 h

/-- Two areas used in examples. -/
def exInner : Area := ⟨[7], false, [[1], [2]], ⟨300, 70000, false⟩⟩
def exOuterArea : Area := ⟨[7], false, [[1]], ⟨10, 70001, false⟩⟩

example : AreaInside exInner exOuterArea ∧ (∃ c, exInner.path.head? = some c ∧ exOuterArea.path.head? = some c) ∧
    exInner.times.start - exOuterArea.times.start ≤ endOf exOuterArea.times - exInner.times.start ∧
    encodeAreaInArea (fixedCodec 1) orderSubspace tinyParams exInner exOuterArea = .ok [0x24, 1, 34, 1, 1, 1, 1, 2] :=
  ⟨areaIsIncluded_sound decides_subspace _ _ (by decide), ⟨[1], by decide, by decide⟩, by decide, by decide⟩

/-- C28 is violated by the stream decoder for all areas whose start differs by 256 or more from the bound it is measured
from: if an area is returned, its start is wrong. -/
theorem C28_violated_wide (ss : Codec) (ordS : Bytes → Bytes → Ordering) (p : PathParams) (inner outer x : Area) (enc rest : Bytes)
    (hin : outer.times.start ≤ inner.times.start) (hend : inner.times.start ≤ endOf outer.times)
    (hwide : 256 ≤ inner.times.start - outer.times.start ∧ 256 ≤ endOf outer.times - inner.times.start)
    (he : encodeAreaInArea ss ordS p inner outer = .ok enc) (g g' : GB) (hg : g.content = enc ++ rest)
    (hd : decodeStreamAreaInArea ss p outer g = .ok (x, g')) : x.times.start ≠ inner.times.start := by
  obtain ⟨rel, -, rfl⟩ := encodeAreaInArea_inv he
  obtain ⟨f1, f2, f3, f4, -, f6, f7⟩ := areaFlags_fields (!isSubspaceSame ordS inner outer) inner.times.openEnd
    (decide (startDiffOf inner outer = inner.times.start - outer.times.start))
    (decide (endDiffOf inner outer = endOf inner.times - inner.times.start))
    (width64 (startDiffOf inner outer).toNat) (width64 (endDiffOf inner outer).toNat)
  unfold decodeStreamAreaInArea at hd
  obtain ⟨flags, g1, hp, hd⟩ := Dec.bind_ok.1 hd
  cases peekByte_is hg hp
  obtain ⟨_, g2, -, hd⟩ := Dec.bind_ok.1 hd
  simp only [f2, f3, f7] at hd
  have key : ∃ d : Nat, d < 256 ∧ x.times.start =
      if startDiffOf inner outer = inner.times.start - outer.times.start then outer.times.start + UInt64.ofNat d
      else outer.times.start - UInt64.ofNat d := by
    split at hd
    · obtain ⟨d, g3, hc, hd⟩ := Dec.bind_ok.1 hd
      obtain ⟨_, g4, -, hd⟩ := Dec.bind_ok.1 hd
      obtain ⟨_, g5, -, hd⟩ := Dec.bind_ok.1 hd
      cases hd
      exact ⟨d, readCompact_one hc, by simp⟩
    · obtain ⟨d, g3, hc, hd⟩ := Dec.bind_ok.1 hd
      obtain ⟨_, g4, -, hd⟩ := Dec.bind_ok.1 hd
      obtain ⟨_, g5, -, hd⟩ := Dec.bind_ok.1 hd
      obtain ⟨_, g6, -, hd⟩ := Dec.bind_ok.1 hd
      cases hd
      exact ⟨d, readCompact_one hc, by simp⟩
  obtain ⟨d, hlt, hx⟩ := key
  have hdn : (UInt64.ofNat d).toNat = d := by
    rw [UInt64.toNat_ofNat']
    exact Nat.mod_eq_of_lt (by omega)
  rw [hx]
  have hw1 : 256 ≤ inner.times.start.toNat - outer.times.start.toNat := by
    have := UInt64.le_iff_toNat_le.1 hwide.1
    rw [UInt64.toNat_sub_of_le _ _ hin] at this
    exact this
  have hw2 : 256 ≤ (endOf outer.times).toNat - inner.times.start.toNat := by
    have := UInt64.le_iff_toNat_le.1 hwide.2
    rw [UInt64.toNat_sub_of_le _ _ hend] at this
    exact this
  have hb3 := (endOf outer.times).toNat_lt
  have hb1 := inner.times.start.toNat_lt
  have hb2 := outer.times.start.toNat_lt
  rw [UInt64.le_iff_toNat_le] at hin
  intro h
  have h := congrArg UInt64.toNat h
  split at h
  · rw [UInt64.toNat_add, hdn] at h
    omega
  · rw [UInt64.toNat_sub, hdn] at h
    omega

example : ∃ g', decodeStreamAreaInArea (fixedCodec 1) tinyParams ⟨[7], false, [[1]], ⟨0, 70001, false⟩⟩
      ⟨[36, 1, 0, 1, 1, 1, 1, 2], [], [], .exact⟩ = .ok (⟨[7], false, [[1], [1]], ⟨1, 70001, false⟩⟩, g') ∧
    encodeAreaInArea (fixedCodec 1) orderSubspace tinyParams ⟨[7], false, [[1], [2]], ⟨256, 70000, false⟩⟩
      ⟨[7], false, [[1]], ⟨0, 70001, false⟩⟩ = .ok [36, 1, 0, 1, 1, 1, 1, 2] :=
  ⟨⟨[2], [], [], .exact⟩, by decide +kernel, by decide +kernel⟩

/-- C28 is violated by the stream decoder: it always takes the start difference to be one
byte wide. -/
theorem C28_violated_stream : ∃ inner outer enc x g', AreaInside inner outer ∧
    encodeAreaInArea (fixedCodec 1) orderSubspace tinyParams inner outer = .ok enc ∧
    decodeStreamAreaInArea (fixedCodec 1) tinyParams outer ⟨enc, [], [], .exact⟩ = .ok (x, g') ∧ ¬ SamePositions x inner := by
  refine ⟨⟨[7], false, [[1], [2]], ⟨256, 70000, false⟩⟩, ⟨[7], false, [[1]], ⟨0, 70001, false⟩⟩,
    [36, 1, 0, 1, 1, 1, 1, 2], ⟨[7], false, [[1], [1]], ⟨1, 70001, false⟩⟩, ⟨[2], [], [], .exact⟩,
    areaIsIncluded_sound decides_subspace _ _ (by decide), by decide +kernel, by decide +kernel, ?_⟩
  intro h
  have := h ⟨[7], [[1], [2]], 256⟩
  rw [← isIncludedArea_iff decides_subspace, ← isIncludedArea_iff decides_subspace] at this
  revert this
  decide

/-- C28, partial, stream decoder: on the encoding of an area for one subspace (the outer area
may be for any), with a start difference of at most 255 measured from the outer start, and an
end not measured from a missing end, if the arrays have no room beyond their bytes, the stream decoder returns
nothing but an area with the same positions, and consumes exactly the encoding. Missing: the other cases, arrays
that have room, and that it returns. -/
theorem C28_stream_sound_partial (ss : Codec) (vs : Bytes → Prop) (hs : ss.Lawful vs)
    (ordS : Bytes → Bytes → Ordering) (ho : Decides BytesLt ordS) (p : PathParams) (inner outer : Area) (hv : ShortPath p inner.path)
    (hsub : vs inner.subspace) (hi : inner.anySubspace = false)
    (hw : inner.times.start - outer.times.start < 256)
    (hstart : inner.times.start - outer.times.start ≤ endOf outer.times - inner.times.start)
    (hend : inner.times.openEnd = true ∨ outer.times.openEnd = false ∨
      endOf inner.times - inner.times.start ≤ endOf outer.times - endOf inner.times)
    (enc rest : Bytes) (he : encodeAreaInArea ss ordS p inner outer = .ok enc) (g g' : GB) (x : Area)
    (hm : g.mem = .exact) (hg : g.content = enc ++ rest) (hx : decodeStreamAreaInArea ss p outer g = .ok (x, g')) :
    SamePositions x inner ∧ g'.content = rest := by
  obtain ⟨h1, h2⟩ := decodedTimes hstart hend
  have hsd : startDiffOf inner outer = inner.times.start - outer.times.start := by
    unfold startDiffOf bigIntMin
    rw [if_neg (by simp only [UInt64.le_iff_toNat_le, UInt64.lt_iff_toNat_lt, gt_iff_lt] at *; omega)]
  obtain ⟨rfl, hr, -⟩ :=
    (decodes_areaInArea hs ho hv (fun _ => hsub) hi (by rw [hsd]; exact hw) he false).1 g rest x g' hm hg hx
  refine ⟨samePositions_of hi.symm rfl rfl h1 rfl ?_, hr⟩
  intro h
  simp only [h, Bool.false_eq_true, if_false]
  exact h2 h

/-- C28, partial, stream decoder: under the same conditions, if the paths share their first
component and everything has arrived (or components are at most as long as their length
field is wide), the round trip succeeds. -/
theorem C28_stream_returns_partial (ss : Codec) (vs : Bytes → Prop) (hs : ss.Lawful vs)
    (ordS : Bytes → Bytes → Ordering) (ho : Decides BytesLt ordS) (p : PathParams) (inner outer : Area) (hv : ShortPath p inner.path)
    (hsub : vs inner.subspace) (hi : inner.anySubspace = false)
    (hsh : ∃ c, inner.path.head? = some c ∧ outer.path.head? = some c)
    (hw : inner.times.start - outer.times.start < 256)
    (hstart : inner.times.start - outer.times.start ≤ endOf outer.times - inner.times.start)
    (hend : inner.times.openEnd = true ∨ outer.times.openEnd = false ∨
      endOf inner.times - inner.times.start ≤ endOf outer.times - endOf inner.times) :
    ∃ enc, encodeAreaInArea ss ordS p inner outer = .ok enc ∧ ∀ (g : GB) (rest : Bytes), g.content = enc ++ rest →
      ((∀ c ∈ inner.path, c.length ≤ getWidthMax32Int p.cl) ∨ g.rest = []) → getWidthMax32Int p.cl ≤ rest.length →
      ∃ x g', decodeStreamAreaInArea ss p outer g = .ok (x, g') ∧ SamePositions x inner ∧ g'.content = rest := by
  obtain ⟨rel, hrel⟩ := encodeRelativePath_ok (p := p) hsh
  obtain ⟨enc, he⟩ : ∃ enc, encodeAreaInArea ss ordS p inner outer = .ok enc := by
    unfold encodeAreaInArea
    simp only [hrel, Res.ok_bind]
    exact ⟨_, rfl⟩
  refine ⟨enc, he, ?_⟩
  intro g rest hg ha hsl
  have hsd : startDiffOf inner outer = inner.times.start - outer.times.start := by
    unfold startDiffOf bigIntMin
    rw [if_neg (by simp only [UInt64.le_iff_toNat_le, UInt64.lt_iff_toNat_lt, gt_iff_lt] at *; omega)]
  have hd := fun all => decodes_areaInArea hs ho hv (fun _ => hsub) hi (by rw [hsd]; exact hw) he all
  obtain ⟨h1, h2⟩ := decodedTimes hstart hend
  have hsame : SamePositions ⟨inner.subspace, false, inner.path, ⟨decodedStart inner outer,
      if inner.times.openEnd = true then 0 else decodedStop inner outer, inner.times.openEnd⟩⟩ inner := by
    refine samePositions_of hi.symm rfl rfl h1 rfl fun h => ?_
    simp only [h, Bool.false_eq_true, if_false]
    exact h2 h
  rcases ha with ha | ha
  · obtain ⟨g', h5, -, h6⟩ := (hd false).2 (.inr ha) g rest (by intro h; simp at h) hg hsl
    exact ⟨_, g', h5, hsame, h6⟩
  · obtain ⟨g', h5, -, h6⟩ := (hd true).2 (.inl rfl) g rest (ready_of_nil ha) hg hsl
    exact ⟨_, g', h5, hsame, h6⟩

example : AreaInside { exInner with times := ⟨200, 70000, false⟩ } { exOuterArea with anySubspace := true } ∧
    (200 : UInt64) - 10 < 256 ∧ (200 : UInt64) - 10 ≤ endOf exOuterArea.times - 200 ∧
    encodeAreaInArea (fixedCodec 1) orderSubspace tinyParams { exInner with times := ⟨200, 70000, false⟩ }
      { exOuterArea with anySubspace := true } = .ok [0xa0, 190, 1, 1, 1, 1, 2, 7] :=
  ⟨areaIsIncluded_sound decides_subspace _ _ (by decide), by decide, by decide, by decide⟩

/-! ## C29 -/

/-- C29 is violated for every open-ended inner area that starts where the outer one does: the
announced length is too small. -/
theorem C29_violated (ss : Codec) (ordS : Bytes → Bytes → Ordering)
    (p : PathParams) (inner outer : Area) (hsub : inner.subspace.length ≤ (ss.enc inner.subspace).length)
    (h1 : inner.times.openEnd = true) (h2 : inner.times.start = outer.times.start) (enc : Bytes)
    (he : encodeAreaInArea ss ordS p inner outer = .ok enc) :
    ∃ n, encodeAreaInAreaLength ordS p inner outer = .ok n ∧ n < enc.length := by
  obtain ⟨rel, hrel, rfl⟩ := encodeAreaInArea_inv he
  obtain ⟨m, hm, hlt⟩ := C20_violated p inner.path outer.path rel hrel
  refine ⟨_, encodeAreaInAreaLength_open ordS p inner outer m hm h1 h2, ?_⟩
  · have hz : ∀ x : UInt64, bigIntMin 0 x = 0 := by
      intro x; unfold bigIntMin; simp
    have e0 : inner.times.start - outer.times.start = 0 := by rw [h2]; simp
    simp only [h1, startDiffOf, e0, hz, if_true, List.length_cons, List.length_append, List.length_nil]
    rw [encodeIntMax64_length]
    have e1 : (0 : UInt64).toNat = 0 := rfl
    rw [e1]
    split <;> simp <;> omega

example : encodeAreaInArea (fixedCodec 1) orderSubspace tinyParams { exInner with times := ⟨10, 0, true⟩ }
    { exOuterArea with times := ⟨10, 0, true⟩ } = .ok [0x60, 0, 1, 1, 1, 2] := by decide

/-- C29, partial: what the announced length misses, when the inner area is open-ended and
starts where the outer one does and the two are for the same subspace: the width of the
component count, the length fields and the components (as in C20). Missing: that the lengths
agree, which is false. -/
theorem C29_deficit_partial (ss : Codec) (ordS : Bytes → Bytes → Ordering)
    (p : PathParams) (inner outer : Area) (hsame : isSubspaceSame ordS inner outer = true)
    (h1 : inner.times.openEnd = true) (h2 : inner.times.start = outer.times.start) (enc : Bytes)
    (he : encodeAreaInArea ss ordS p inner outer = .ok enc) :
    ∃ n, encodeAreaInAreaLength ordS p inner outer = .ok n ∧
      enc.length = n + getWidthMax32Int p.cc +
        (inner.path.length - commonPrefixIndex inner.path outer.path) * (getWidthMax32Int p.cl - 1) +
        pathBytes (inner.path.drop (commonPrefixIndex inner.path outer.path)) := by
  obtain ⟨rel, hrel, rfl⟩ := encodeAreaInArea_inv he
  obtain ⟨m, hm, -⟩ := C20_violated p inner.path outer.path rel hrel
  have := C20_deficit_partial p inner.path outer.path rel m hrel hm
  refine ⟨_, encodeAreaInAreaLength_open ordS p inner outer m hm h1 h2, ?_⟩
  · have hz : ∀ x : UInt64, bigIntMin 0 x = 0 := by
      intro x; unfold bigIntMin; simp
    have e0 : inner.times.start - outer.times.start = 0 := by rw [h2]; simp
    simp only [h1, hsame, startDiffOf, e0, hz, if_true, List.length_cons, List.length_append, List.length_nil]
    rw [encodeIntMax64_length]
    have e1 : (0 : UInt64).toNat = 0 := rfl
    rw [e1]
    omega

example : isSubspaceSame orderSubspace ⟨[7], false, [[1], [2, 3]], ⟨10, 0, true⟩⟩ ⟨[7], false, [[1]], ⟨10, 0, true⟩⟩ = true ∧
    encodeAreaInArea (fixedCodec 1) orderSubspace tinyParams ⟨[7], false, [[1], [2, 3]], ⟨10, 0, true⟩⟩ ⟨[7], false, [[1]], ⟨10, 0, true⟩⟩ =
      .ok [96, 0, 1, 1, 2, 2, 3] := by
  decide +kernel

/-- C29, partial: what the announced length misses for any two areas: the path as in C20, for the
times that it takes closed ranges for open ones and open ones for closed, and the difference between
the encoded and the plain subspace. Missing: that the lengths agree, which is false. -/
theorem C29_exact_partial (ss : Codec) (ordS : Bytes → Bytes → Ordering) (p : PathParams) (inner outer : Area) (enc : Bytes)
    (he : encodeAreaInArea ss ordS p inner outer = .ok enc) :
    ∃ n, encodeAreaInAreaLength ordS p inner outer = .ok n ∧
      enc.length + timeBytes inner.times outer.times (swappedEnd inner.times) (swappedEnd outer.times) +
          (if isSubspaceSame ordS inner outer then 0 else inner.subspace.length) =
        n + timeBytes inner.times outer.times (endOf inner.times) (endOf outer.times) +
          (if isSubspaceSame ordS inner outer then 0 else (ss.enc inner.subspace).length) +
          getWidthMax32Int p.cc +
          (inner.path.length - commonPrefixIndex inner.path outer.path) * (getWidthMax32Int p.cl - 1) +
          pathBytes (inner.path.drop (commonPrefixIndex inner.path outer.path)) := by
  obtain ⟨rel, hrel, rfl⟩ := encodeAreaInArea_inv he
  obtain ⟨m, hm, -⟩ := C20_violated p inner.path outer.path rel hrel
  have hd := C20_deficit_partial p inner.path outer.path rel m hrel hm
  have hw : ∀ x : UInt64, getWidthMax64Int x.toNat = bytesFor x := fun _ => rfl
  have hmin : ∀ a b : UInt64, bigIntMin a b = min a b := by
    intro a b
    unfold bigIntMin
    show (if a > b then b else a) = if a ≤ b then a else b
    grind
  have hs : ∀ t : GRange UInt64, (if (!t.openEnd) = true then reallyBigInt else t.stop) = swappedEnd t := by
    intro t
    unfold swappedEnd
    cases t.openEnd <;> rfl
  have hlen : encodeAreaInAreaLength ordS p inner outer = .ok (1 + (if isSubspaceSame ordS inner outer then 0 else inner.subspace.length) + m +
      timeBytes inner.times outer.times (swappedEnd inner.times) (swappedEnd outer.times)) := by
    unfold encodeAreaInAreaLength
    rw [hm]
    simp only [hs, hmin, hw, Res.ok_bind, timeBytes, Nat.add_assoc]
  refine ⟨_, hlen, ?_⟩
  simp only [List.length_cons, List.length_append, encodeIntMax64_length, hw, startDiffOf, endDiffOf, hmin]
  unfold timeBytes
  cases inner.times.openEnd <;> cases isSubspaceSame ordS inner outer <;> simp [encodeIntMax64_length, hw] <;> omega

example :
    encodeAreaInAreaLength orderSubspace tinyParams exInner exOuterArea = .ok 6 ∧
    timeBytes exInner.times exOuterArea.times (swappedEnd exInner.times) (swappedEnd exOuterArea.times) = 3 ∧
    timeBytes exInner.times exOuterArea.times (endOf exInner.times) (endOf exOuterArea.times) = 3 := by decide +kernel

end Willow.Props
