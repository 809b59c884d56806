import Verif.Lemmas.PropsRelativeRanges
import Verif.Props.RelativeArea2

/-! Property theorem C31: encoding of a range relative to a range. -/

namespace Willow.Props
open Willow Spec

/-- C31 is violated by the stream decoder on every input: the end of the decoded subspace range
is missing and the range is marked closed, so no position is in the decoded range. -/
theorem C31_violated_stream (ss : Codec) (p : PathParams) (ref x : Range3d) (g g' : GB)
    (h : decodeStreamRange3dRelative ss p ref g = .ok (x, g')) :
    (∀ y, ¬ InRange3d x y) ∧ ∀ r, ValidRange3d r → x ≠ r := by
  have hx : x.subspace.stop = [] ∧ x.subspace.openEnd = false := by
    unfold decodeStreamRange3dRelative at h
    obtain ⟨⟨b1, b2⟩, g1, -, h⟩ := Dec.bind_ok.1 h
    dsimp only at h
    split at h
    · simp at h
    obtain ⟨_, _, -, h⟩ := Dec.bind_ok.1 h
    obtain ⟨_, _, -, h⟩ := Dec.bind_ok.1 h
    obtain ⟨_, _, -, h⟩ := Dec.bind_ok.1 h
    obtain ⟨_, _, -, h⟩ := Dec.bind_ok.1 h
    obtain ⟨_, _, -, h⟩ := Dec.bind_ok.1 h
    obtain ⟨_, _, -, h⟩ := Dec.bind_ok.1 h
    split at h
    · simp only [Dec.pure_apply, Res.ok.injEq, Prod.mk.injEq] at h
      rw [← h.1]; exact ⟨rfl, rfl⟩
    · obtain ⟨_, _, -, h⟩ := Dec.bind_ok.1 h
      obtain ⟨_, _, -, h⟩ := Dec.bind_ok.1 h
      obtain ⟨_, _, -, h⟩ := Dec.bind_ok.1 h
      obtain ⟨_, _, -, h⟩ := Dec.bind_ok.1 h
      simp only [Dec.pure_apply, Res.ok.injEq, Prod.mk.injEq] at h
      rw [← h.1]; exact ⟨rfl, rfl⟩
  constructor
  · rintro y ⟨⟨-, h1⟩, -⟩
    rw [hx.1, hx.2] at h1
    simp [BytesLt, LexLt] at h1
  · rintro r ⟨hr, -⟩ rfl
    unfold ValidRange at hr
    rw [hx.1, hx.2] at hr
    simp [BytesLt, LexLt] at hr

/-- C31 is violated by the other decoder on every closed time range: the decoded end is 0. -/
theorem C31_violated_time (ss : Codec) (p : PathParams) (ref x : Range3d) (enc : Bytes)
    (h : decodeRange3dRelative ss p enc ref = .ok x) :
    x.time.stop = 0 ∧ ∀ r, ValidRange3d r → r.time.openEnd = false → x ≠ r := by
  have hx : x.time.stop = 0 := by
    unfold decodeRange3dRelative at h
    obtain ⟨⟨b1, b2⟩, -, h⟩ := Res.bind_eq_ok.1 h
    dsimp only at h
    split at h
    · simp at h
    iterate 8 obtain ⟨_, -, h⟩ := Res.bind_eq_ok.1 h
    rw [Res.ok.injEq] at h
    rw [← h]
  refine ⟨hx, ?_⟩
  rintro r ⟨-, -, hr⟩ ho rfl
  rcases hr with hr | hr
  · rw [ho] at hr; simp at hr
  · rw [hx] at hr
    exact absurd hr (by simp [TimeLt])

/-- C31 is violated for an open time range too. -/
theorem C31_violated_open : ∃ (r ref x : Range3d) (enc : Bytes), ValidRange3d r ∧ ValidRange3d ref ∧
    r.time.openEnd = true ∧ encodeRange3dRelative (fixedCodec 1) orderSubspace tinyParams r ref = .ok enc ∧
    decodeRange3dRelative (fixedCodec 1) tinyParams enc ref = .ok x ∧ x.time.start ≠ r.time.start := by
  refine ⟨⟨⟨[1], [3], false⟩, ⟨[[5, 6]], [[5, 6], [8]], true⟩, ⟨7, 0, true⟩⟩,
    ⟨⟨[1], [4], false⟩, ⟨[[5, 6]], [[5, 6], [9]], false⟩, ⟨3, 70002, false⟩⟩,
    ⟨⟨[1], [3], false⟩, ⟨[[5, 6]], [], true⟩, ⟨3, 0, true⟩⟩, [125, 200, 3, 1, 0, 1, 1, 1, 8, 4, 3], ?_, ?_, rfl,
    by decide +kernel, by decide +kernel, by decide⟩ <;>
  · rw [← isValidRange3d_iff decides_subspace]; decide

/-- C31 is violated by the end of a closed path range, whichever path it is encoded relative to: it is read from
the bytes of the start, and so is the start of the time range. -/
theorem C31_violated_path : ∃ (r q ref x y : Range3d) (enc enq : Bytes), ValidRange3d r ∧ ValidRange3d q ∧ ValidRange3d ref ∧
    r.path.openEnd = false ∧ q.path.openEnd = false ∧
    encodeRange3dRelative (fixedCodec 1) orderSubspace tinyParams r ref = .ok enc ∧
    encodeRange3dRelative (fixedCodec 1) orderSubspace tinyParams q ref = .ok enq ∧
    decodeRange3dRelative (fixedCodec 1) tinyParams enc ref = .ok x ∧
    decodeRange3dRelative (fixedCodec 1) tinyParams enq ref = .ok y ∧
    x.path.stop = ref.path.start ∧ r.path.stop ≠ ref.path.start ∧ x.time.start = ref.time.start ∧
    y.path.stop = ref.path.start ∧ q.path.stop = ref.path.stop ∧ y.time.start = ref.time.start ∧
    r.time.start = q.time.start ∧ r.time.start = 4 := by
  refine ⟨⟨⟨[1], [3], false⟩, ⟨[[5, 6], [0]], [[5, 6], [7]], false⟩, ⟨4, 0, true⟩⟩,
    ⟨⟨[1], [3], false⟩, ⟨[[5, 6], [0]], [[5, 6], [9]], false⟩, ⟨4, 0, true⟩⟩,
    ⟨⟨[1], [4], false⟩, ⟨[[5, 6]], [[5, 6], [9]], false⟩, ⟨3, 70002, false⟩⟩,
    ⟨⟨[1], [3], false⟩, ⟨[[5, 6], [0]], [[5, 6]], false⟩, ⟨3, 0, true⟩⟩,
    ⟨⟨[1], [3], false⟩, ⟨[[5, 6], [0]], [[5, 6]], false⟩, ⟨3, 0, true⟩⟩,
    [123, 200, 3, 1, 1, 1, 0, 1, 1, 1, 7, 1, 3], [121, 200, 3, 1, 1, 1, 0, 2, 0, 1, 3], ?_, ?_, ?_, rfl, rfl,
    by decide +kernel, by decide +kernel, by decide +kernel, by decide +kernel, rfl, by decide, rfl, rfl, rfl, rfl, rfl, rfl⟩ <;>
  · rw [← isValidRange3d_iff decides_subspace]; decide

/-- What the decoder reads in the start bits. -/
def StartCode.bound : StartCode → Bound
  | .refStart => .refStart
  | .refEnd => .refEnd
  | .given => .yes

/-- C31, partial: what the decoder returns, if it returns, has the right subspace range, the
right start of the path range and the right open ends, unless both subspace ranges are open
with different starts. Missing: the end of the path range and the time range, which are not
decoded correctly, and that it returns. -/
theorem C31_partial (ss : Codec) (vs : Bytes → Prop) (hs : ss.Lawful vs) (ordS : Bytes → Bytes → Ordering)
    (ho : Decides BytesLt ordS) (p : PathParams) (r ref : Range3d)
    (h1 : vs r.subspace.start) (h2 : r.subspace.openEnd = false → vs r.subspace.stop)
    (h3 : ShortPath p r.path.start)
    (hbits : 2 + (ss.enc r.subspace.start).length + (ss.enc r.subspace.stop).length < 2 ^ p.bits)
    (hopen : (r.subspace.openEnd = true ∧ ref.subspace.openEnd = true) → r.subspace.start = ref.subspace.start)
    (enc : Bytes) (x : Range3d) (he : encodeRange3dRelative ss ordS p r ref = .ok enc)
    (hx : decodeRange3dRelative ss p enc ref = .ok x) :
    (∀ y, InRange BytesLt x.subspace y ↔ InRange BytesLt r.subspace y) ∧ x.path.start = r.path.start ∧
      x.path.openEnd = r.path.openEnd ∧ x.time.openEnd = r.time.openEnd := by
  obtain ⟨s, e, startRel, endRel, tsRel, tsAdd, teRel, teAdd, we, ps, pe, endEnc, sd, hsc, hec, hps, hpe, -, -, -, -, rfl⟩ :=
    encodeRange3dRelative_inv he
  obtain ⟨f1, f2, f3, f4, -, -, f7⟩ := firstByte_fields s e startRel r.path.openEnd endRel r.time.openEnd
  generalize hb1 : firstByte s e startRel r.path.openEnd endRel r.time.openEnd = b1 at *
  generalize secondByte tsRel tsAdd teRel teAdd (getWidthMax64Int sd.toNat) we = b2 at *
  generalize htail : pe ++ (encodeIntMax64 sd.toNat ++ endEnc) = tail at *
  unfold decodeRange3dRelative at hx
  simp only [Res.ok_bind, f3, f4, f7] at hx
  split at hx
  · simp at hx
  rename_i hne
  obtain ⟨⟨xs, pos1⟩, hx1, hx⟩ := Res.bind_eq_ok.1 hx
  obtain ⟨⟨xe, xo, pos2⟩, hx2, hx⟩ := Res.bind_eq_ok.1 hx
  obtain ⟨⟨xp, pos3⟩, hx3, hx⟩ := Res.bind_eq_ok.1 hx
  obtain ⟨⟨xq, pos4⟩, hx4, hx⟩ := Res.bind_eq_ok.1 hx
  iterate 4 obtain ⟨_, -, hx⟩ := Res.bind_eq_ok.1 hx
  rw [Res.ok.injEq] at hx
  dsimp only at hx1 hx2 hx3
  have fs : startBound b1 = s.bound := by
    rw [f1] at hne ⊢
    cases e <;> cases s <;> first | rfl | exact absurd rfl hne
  have hconv : ∀ n, n ≤ 2 + (ss.enc r.subspace.start).length + (ss.enc r.subspace.stop).length → p.conv n = n := by
    intro n hn
    exact Nat.mod_eq_of_lt (by omega)
  have hfrom : ∀ (t u : Bytes), sliceFrom (b1 :: b2 :: (t ++ u)) (2 + t.length) = .ok u := by
    intro t u
    rw [← List.cons_append, ← List.cons_append]
    exact sliceFrom_append _ _ _ (by simp; omega)
  have hs1 : xs = r.subspace.start ∧ pos1 = 2 + (startIds ss r s).length := by
    cases s with
    | refStart =>
      rw [fs] at hx1
      dsimp only [StartCode.bound] at hx1
      simp only [Res.ok.injEq, Prod.mk.injEq] at hx1
      refine ⟨?_, hx1.2.symm⟩
      rw [← hx1.1]
      simp only [isEqualRangeValue] at hsc
      by_cases hoo : r.subspace.openEnd = true ∧ ref.subspace.openEnd = true
      · exact (hopen hoo).symm
      · rw [if_neg (by simpa using hoo)] at hsc
        simp only [if_true, Bool.and_eq_true, beq_iff_eq] at hsc
        exact ((ho.eq_iff _ _).1 hsc.2).symm
    | refEnd =>
      rw [fs] at hx1
      dsimp only [StartCode.bound] at hx1
      split at hx1
      · rename_i hro
        simp only [Res.ok.injEq, Prod.mk.injEq] at hx1
        refine ⟨?_, hx1.2.symm⟩
        rw [← hx1.1]
        simp only [isEqualRangeValue] at hsc
        rw [if_neg (by simp at hro; simp [hro])] at hsc
        simp only [if_true, Bool.false_eq_true, if_false, Bool.and_eq_true, beq_iff_eq] at hsc
        exact ((ho.eq_iff _ _).1 hsc.2).symm
      · simp at hx1
    | given =>
      rw [fs] at hx1
      dsimp only [StartCode.bound] at hx1
      dsimp only [startIds] at hx1 ⊢
      rw [show sliceFrom (b1 :: b2 :: (ss.enc r.subspace.start ++ (endIds ss r e ++ (ps ++ tail)))) 2 =
        .ok (ss.enc r.subspace.start ++ (endIds ss r e ++ (ps ++ tail))) from hfrom [] _] at hx1
      rw [Res.ok_bind, hs.dec _ _ h1, Res.ok_bind] at hx1
      simp only [Res.ok.injEq, Prod.mk.injEq] at hx1
      refine ⟨hx1.1.symm, ?_⟩
      rw [← hx1.2, hs.len _ h1, hconv _ (by omega)]
  obtain ⟨rfl, rfl⟩ := hs1
  have hl1 : (startIds ss r s).length ≤ (ss.enc r.subspace.start).length := by
    cases s <;> simp [startIds]
  have hs2 : xo = r.subspace.openEnd ∧ (r.subspace.openEnd = false → xe = r.subspace.stop) ∧
      pos2 = 2 + ((startIds ss r s).length + (endIds ss r e).length) := by
    rw [f2] at hx2
    cases e with
    | none =>
      simp only [Res.ok.injEq, Prod.mk.injEq] at hx2
      simp only at hec
      exact ⟨by rw [← hx2.2.1, hec], by simp [hec], hx2.2.2.symm⟩
    | overwritten => exact absurd f1 hne
    | refEnd =>
      simp only [Res.ok.injEq, Prod.mk.injEq] at hx2
      obtain ⟨hec1, hec⟩ := hec
      simp only [isEqualRangeValue, hec1, Bool.false_and, Bool.false_eq_true, if_false, Bool.not_false, Bool.true_and,
        Bool.and_eq_true, beq_iff_eq] at hec
      refine ⟨by rw [← hx2.2.1, hec1], fun _ => ?_, hx2.2.2.symm⟩
      rw [← hx2.1]
      exact ((ho.eq_iff _ _).1 hec.2).symm
    | given =>
      simp only at hec
      dsimp only [endIds] at hx2 ⊢
      rw [hfrom, Res.ok_bind, hs.dec _ _ (h2 hec), Res.ok_bind] at hx2
      simp only [Res.ok.injEq, Prod.mk.injEq] at hx2
      refine ⟨by rw [← hx2.2.1, hec], fun _ => hx2.1.symm, ?_⟩
      rw [← hx2.2.2, hs.len _ (h2 hec), hconv _ (by omega)]
      omega
  obtain ⟨rfl, hxe, rfl⟩ := hs2
  have hs3 : xp = r.path.start := by
    have := decodeRelativePath_encode h3 hps tail
    rw [← List.append_assoc (startIds ss r s), ← List.length_append, hfrom] at hx3
    cases startRel with
    | true =>
      simp only [if_true] at hx3 this
      rw [Res.ok_bind, this, Res.ok_bind] at hx3
      obtain ⟨_, -, hx3⟩ := Res.bind_eq_ok.1 hx3
      simp only [Res.ok.injEq, Prod.mk.injEq] at hx3
      exact hx3.1.symm
    | false =>
      simp only [Bool.false_eq_true, if_false] at hx3 this
      split at hx3
      · simp at hx3
      rw [Res.ok_bind, this, Res.ok_bind] at hx3
      obtain ⟨_, -, hx3⟩ := Res.bind_eq_ok.1 hx3
      simp only [Res.ok.injEq, Prod.mk.injEq] at hx3
      exact hx3.1.symm
  rw [← hx]
  refine ⟨fun y => ?_, hs3, rfl, rfl⟩
  unfold InRange
  dsimp only
  cases hop : r.subspace.openEnd with
  | true => simp
  | false => rw [hxe hop]

example : encodeRange3dRelative (fixedCodec 1) orderSubspace tinyParams
      ⟨⟨[1], [3], false⟩, ⟨[[5, 6]], [[5, 6], [8]], true⟩, ⟨7, 0, true⟩⟩
      ⟨⟨[1], [4], false⟩, ⟨[[5, 6]], [[5, 6], [9]], false⟩, ⟨3, 70002, false⟩⟩ =
        .ok [125, 200, 3, 1, 0, 1, 1, 1, 8, 4, 3] ∧
    decodeRange3dRelative (fixedCodec 1) tinyParams [125, 200, 3, 1, 0, 1, 1, 1, 8, 4, 3]
      ⟨⟨[1], [4], false⟩, ⟨[[5, 6]], [[5, 6], [9]], false⟩, ⟨3, 70002, false⟩⟩ =
        .ok ⟨⟨[1], [3], false⟩, ⟨[[5, 6]], [], true⟩, ⟨3, 0, true⟩⟩ := by decide +kernel

/-- C31: a first byte that says neither where the subspaces start relative to the reference nor that their start follows is
reported, whatever follows. -/
theorem C31_noStart (ss : Codec) (p : PathParams) (ref : Range3d) (b1 b2 : UInt8) (rest : Bytes) (h : b1.toNat < 64) :
    decodeRange3dRelative ss p (b1 :: b2 :: rest) ref = .err := by
  have key : ∀ n < 64, startBound (UInt8.ofNat n) = .none := by decide
  have := key b1.toNat h
  rw [UInt8.ofNat_toNat] at this
  unfold decodeRange3dRelative
  simp only [Res.ok_bind, this, if_true]

example : decodeRange3dRelative (fixedCodec 1) tinyParams [0x3f, 0, 1] ⟨⟨[1], [4], false⟩, ⟨[], [], true⟩, ⟨3, 9, false⟩⟩ = .err ∧
    ((0x3f : UInt8).toNat < 64) := by decide +kernel

/-- C31 is violated by the stream decoder for every range that starts at the subspace where the reference starts,
if both are closed or both are open: having returned a range, it leaves bytes of the encoding in the stream, where
whatever is decoded next finds them. -/
theorem C31_violated_left (ss : Codec) (vs : Bytes → Prop) (hs : ss.Lawful vs) (ordS : Bytes → Bytes → Ordering)
    (ho : Decides BytesLt ordS) (p : PathParams) (r ref x : Range3d)
    (h1 : r.subspace.start = ref.subspace.start) (h2 : r.subspace.openEnd = ref.subspace.openEnd)
    (h3 : r.subspace.openEnd = false → vs r.subspace.stop)
    (h4 : ShortPath p r.path.start) (h5 : ShortPath p r.path.stop) (h6 : r.path.openEnd = false)
    (enc rest : Bytes) (g g' : GB) (he : encodeRange3dRelative ss ordS p r ref = .ok enc) (hm : g.mem = .exact)
    (hg : g.content = enc ++ rest) (hx : decodeStreamRange3dRelative ss p ref g = .ok (x, g')) :
    rest.length < g'.content.length := by
  obtain ⟨-, -, -, left, hl, hc⟩ := decodeStreamRange3dRelative_same hs ho h1 h2 h3 h4 h5 h6 he hm hg hx
  rw [hc, List.length_append]
  exact Nat.lt_add_of_pos_left (List.length_pos_iff.2 hl)

example : encodeRange3dRelative (fixedCodec 1) orderSubspace tinyParams
      ⟨⟨[1], [3], false⟩, ⟨[[5, 6]], [[5, 6], [8]], false⟩, ⟨300, 400, false⟩⟩
      ⟨⟨[1], [4], false⟩, ⟨[[5, 6]], [[5, 6], [9]], false⟩, ⟨3, 70002, false⟩⟩ =
        .ok [122, 221, 3, 1, 0, 1, 1, 1, 8, 1, 41, 1, 141] ∧
    decodeStreamRange3dRelative (fixedCodec 1) tinyParams
      ⟨⟨[1], [4], false⟩, ⟨[[5, 6]], [[5, 6], [9]], false⟩, ⟨3, 70002, false⟩⟩
      ⟨[122, 221, 3, 1, 0, 1, 1, 1, 8, 1, 41, 1, 141, 9], [], [], .exact⟩ =
        .ok (⟨⟨[3], [], false⟩, ⟨[[5, 6]], [[5, 6], [8]], false⟩, ⟨300, 70399, false⟩⟩,
          ⟨[1, 141, 9], [], [], .exact⟩) := by decide +kernel

/-- C31, partial: when the range starts at the subspace where the reference starts and both are closed or both
are open, what the stream decoder returns, if it returns, has the right path range and the right start of the
time range, and says rightly if the time range is open. Missing: the subspace range and the end of the time
range, which are not decoded correctly (`C31_violated_stream`), ranges that start elsewhere, and that it returns. -/
theorem C31_stream_partial (ss : Codec) (vs : Bytes → Prop) (hs : ss.Lawful vs) (ordS : Bytes → Bytes → Ordering)
    (ho : Decides BytesLt ordS) (p : PathParams) (r ref x : Range3d)
    (h1 : r.subspace.start = ref.subspace.start) (h2 : r.subspace.openEnd = ref.subspace.openEnd)
    (h3 : r.subspace.openEnd = false → vs r.subspace.stop)
    (h4 : ShortPath p r.path.start) (h5 : ShortPath p r.path.stop) (h6 : r.path.openEnd = false)
    (enc rest : Bytes) (g g' : GB) (he : encodeRange3dRelative ss ordS p r ref = .ok enc) (hm : g.mem = .exact)
    (hg : g.content = enc ++ rest) (hx : decodeStreamRange3dRelative ss p ref g = .ok (x, g')) :
    x.path = r.path ∧ x.time.start = r.time.start ∧ x.time.openEnd = r.time.openEnd := by
  obtain ⟨a, b, c, -⟩ := decodeStreamRange3dRelative_same hs ho h1 h2 h3 h4 h5 h6 he hm hg hx
  exact ⟨a, b, c⟩

example : encodeRange3dRelative (fixedCodec 1) orderSubspace tinyParams
      ⟨⟨[1], [3], false⟩, ⟨[[5, 6]], [[5, 6], [8]], false⟩, ⟨300, 400, false⟩⟩
      ⟨⟨[1], [4], false⟩, ⟨[[5, 6]], [[5, 6], [9]], false⟩, ⟨3, 70002, false⟩⟩ =
        .ok [122, 221, 3, 1, 0, 1, 1, 1, 8, 1, 41, 1, 141] ∧
    decodeStreamRange3dRelative (fixedCodec 1) tinyParams
      ⟨⟨[1], [4], false⟩, ⟨[[5, 6]], [[5, 6], [9]], false⟩, ⟨3, 70002, false⟩⟩
      ⟨[122, 221, 3, 1, 0, 1, 1, 1, 8, 1, 41, 1, 141], [], [], .exact⟩ =
        .ok (⟨⟨[3], [], false⟩, ⟨[[5, 6]], [[5, 6], [8]], false⟩, ⟨300, 70399, false⟩⟩,
          ⟨[1, 141], [], [], .exact⟩) := by decide +kernel

/-- C31, partial: the first two bytes of an encoded range say which bound of the reference the parts are given
by. The bit for the start of the path is set exactly if the start of the reference shares with it all that the
end of the reference shares; likewise the bit for the end of a closed path range; and the bit for the start of
the time is set exactly if the start of the reference is at least as near as its end (or the largest number, if
it is open). Missing: that the rest of the encoding can be decoded. -/
theorem C31_nearest_partial (ss : Codec) (ordS : Bytes → Bytes → Ordering) (p : PathParams) (r ref : Range3d) (enc : Bytes)
    (he : encodeRange3dRelative ss ordS p r ref = .ok enc) :
    ∃ b1 b2 rest, enc = b1 :: b2 :: rest ∧
      (b1 &&& 0x08 = 0x08 ↔ ∀ pre, pre <+: r.path.start → pre <+: ref.path.stop → pre <+: ref.path.start) ∧
      (b1 &&& 0x02 = 0x02 ↔ r.path.openEnd = false ∧
        ∀ pre, pre <+: r.path.stop → pre <+: ref.path.stop → pre <+: ref.path.start) ∧
      (b1 &&& 0x04 = 0x04 ↔ r.path.openEnd = true) ∧ (b1 &&& 0x01 = 0x01 ↔ r.time.openEnd = true) ∧
      (b2 &&& 0x80 = 0x80 ↔
        (r.time.start.toNat - ref.time.start.toNat) + (ref.time.start.toNat - r.time.start.toNat) ≤
        (r.time.start.toNat - (if ref.time.openEnd then 2 ^ 64 - 1 else ref.time.stop.toNat)) +
          ((if ref.time.openEnd then 2 ^ 64 - 1 else ref.time.stop.toNat) - r.time.start.toNat)) := by
  obtain ⟨s, e, startRel, endRel, tsRel, tsAdd, teRel, teAdd, we, ps, pe, endEnc, sd, hsr, her, htr, -, -, -, -, -, -, hwe, -, rfl⟩ :=
    encodeRange3dRelative_inv' he
  obtain ⟨-, -, f3, f4, -, f6, f7⟩ := firstByte_fields s e startRel r.path.openEnd endRel r.time.openEnd
  obtain ⟨k1, -⟩ := secondByte_fields tsRel tsAdd teRel teAdd (width64 sd.toNat) hwe
  refine ⟨_, _, _, rfl, ?_, ?_, ?_, ?_, ?_⟩
  · rw [← beq_iff_eq, f3, hsr, decide_eq_true_iff, shares_more]
  · rw [← beq_iff_eq, f6, her, Bool.and_eq_true, decide_eq_true_iff, shares_more, Bool.not_eq_true', and_comm]
  · rw [← beq_iff_eq, f4]
  · rw [← beq_iff_eq, f7]
  · rw [← beq_iff_eq, k1, htr, decide_eq_true_iff, UInt64.le_iff_toNat_le, absDiff_toNat, absDiff_toNat, lastOf]
    cases ref.time.openEnd <;> simp

example : encodeRange3dRelative (fixedCodec 1) orderSubspace tinyParams
      ⟨⟨[1], [3], false⟩, ⟨[[5, 6]], [[5, 6], [8]], false⟩, ⟨69000, 70000, false⟩⟩
      ⟨⟨[1], [4], false⟩, ⟨[[5]], [[5, 6], [9]], false⟩, ⟨3, 70002, false⟩⟩ =
        .ok [112, 16, 3, 1, 0, 1, 1, 1, 8, 3, 234, 0, 1, 17, 109] := by decide +kernel

/-- C31 is violated: the encoder crashes exactly when the path where the range starts, or the one where it ends, begins with
the first component of neither path of the reference; in particular whenever one of them is empty, as the end is when the
range has none, and whenever both paths of the reference are empty. -/
theorem C31_violated_crash (ss : Codec) (ordS : Bytes → Bytes → Ordering) (p : PathParams) (r ref : Range3d) :
    (encodeRange3dRelative ss ordS p r ref = .crash ↔
      ¬ ((SameFirst r.path.start ref.path.start ∨ SameFirst r.path.start ref.path.stop) ∧
        (SameFirst r.path.stop ref.path.start ∨ SameFirst r.path.stop ref.path.stop))) ∧
    (r.path.start = [] ∨ r.path.stop = [] ∨ (ref.path.start = [] ∧ ref.path.stop = []) →
      encodeRange3dRelative ss ordS p r ref = .crash) := by
  have key : encodeRange3dRelative ss ordS p r ref = .crash ↔
      ¬ ((SameFirst r.path.start ref.path.start ∨ SameFirst r.path.start ref.path.stop) ∧
        (SameFirst r.path.stop ref.path.start ∨ SameFirst r.path.stop ref.path.stop)) := by
    unfold encodeRange3dRelative
    dsimp only
    rcases encodeRelativePath_nearer (p := p) (a := r.path.start) (s := ref.path.start) (t := ref.path.stop) with
      ⟨⟨x, h1⟩, h2⟩ | ⟨h1, h2⟩
    · rw [h1]
      rcases encodeRelativePath_nearer (p := p) (a := r.path.stop) (s := ref.path.start) (t := ref.path.stop) with
        ⟨⟨y, h3⟩, h4⟩ | ⟨h3, h4⟩
      · rw [h3]
        simp [h2, h4]
      · rw [h3]
        simp [h4]
    · rw [h1]
      simp [h2]
  refine ⟨key, fun h => key.2 fun hs => ?_⟩
  rcases h with h | h | ⟨h, h'⟩
  · rw [h] at hs
    rcases hs.1 with ⟨c, hc, -⟩ | ⟨c, hc, -⟩ <;> simp at hc
  · rw [h] at hs
    rcases hs.2 with ⟨c, hc, -⟩ | ⟨c, hc, -⟩ <;> simp at hc
  · rw [h, h'] at hs
    rcases hs.1 with ⟨c, -, hc⟩ | ⟨c, -, hc⟩ <;> simp at hc

example : encodeRange3dRelative (fixedCodec 1) orderSubspace tinyParams ⟨⟨[1], [3], false⟩, ⟨[[5, 6]], [], true⟩, ⟨2, 0, true⟩⟩
      ⟨⟨[1], [3], false⟩, ⟨[[5, 6]], [], true⟩, ⟨2, 0, true⟩⟩ = .crash ∧
    encodeRange3dRelative (fixedCodec 1) orderSubspace tinyParams
      ⟨⟨[1], [3], false⟩, ⟨[[5, 6]], [[5, 6], [7]], true⟩, ⟨2, 0, true⟩⟩
      ⟨⟨[1], [3], false⟩, ⟨[[5, 6]], [], true⟩, ⟨2, 0, true⟩⟩ ≠ .crash := by decide +kernel

end Willow.Props
