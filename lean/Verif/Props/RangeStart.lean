import Verif.Lemmas.RangeEnd

/-! More of C31: where the time range of an encoded range without an end of its paths is decoded to start, and where a closed
path range is decoded to end. -/

namespace Willow.Props
open Willow Spec

/-- C31 is violated by every range without an end of its paths and of its times that starts at the path where the reference starts
and less than 256 after the time where the reference starts: if it is decoded at all, its times start where those of the
reference start or end. The length of the path is taken to be shorter than it is, and the bytes of the end of the paths, which are
written but not read, come before those of the time. -/
theorem C31_violated_start (ss : Codec) (vs : Bytes → Prop) (hs : ss.Lawful vs) (ordS : Bytes → Bytes → Ordering)
    (ho : Decides BytesLt ordS) (p : PathParams) (r ref : Range3d)
    (h1 : vs r.subspace.start) (h2 : r.subspace.openEnd = false → vs r.subspace.stop)
    (h3 : ShortPath p r.path.start)
    (hbits : 7 + (ss.enc r.subspace.start).length + (ss.enc r.subspace.stop).length < 2 ^ p.bits)
    (hopen : (r.subspace.openEnd = true ∧ ref.subspace.openEnd = true) → r.subspace.start = ref.subspace.start)
    (hp : r.path.start = ref.path.start) (hpo : r.path.openEnd = true) (hto : r.time.openEnd = true)
    (hge : ref.time.start ≤ r.time.start) (hnear : r.time.start.toNat < ref.time.start.toNat + 256)
    (enc : Bytes) (x : Range3d) (he : encodeRange3dRelative ss ordS p r ref = .ok enc)
    (hx : decodeRange3dRelative ss p enc ref = .ok x) :
    x.time.start = ref.time.start ∨ x.time.start = ref.time.stop := by
  obtain ⟨s, e, startRel, endRel, tsRel, tsAdd, teRel, teAdd, we, ps, pe, endEnc, sd, hsr, -, htr, hsc, hec, hps, hpe, hsd, -, hwe, -, rfl⟩ :=
    encodeRange3dRelative_inv' he
  obtain ⟨f1, f2, f3, f4, -, -, f7⟩ := firstByte_fields s e startRel r.path.openEnd endRel r.time.openEnd
  generalize hb1 : firstByte s e startRel r.path.openEnd endRel r.time.openEnd = b1 at *
  have hsd1 : getWidthMax64Int sd.toNat = 1 := by
    have : sd.toNat < 2 ^ 8 := by
      rw [hsd, absDiff_toNat]
      have hle : ∀ a b : UInt64, absDiffUint64 r.time.start a ≤ absDiffUint64 r.time.start b →
          (r.time.start.toNat - a.toNat) + (a.toNat - r.time.start.toNat) ≤ (r.time.start.toNat - b.toNat) + (b.toNat - r.time.start.toNat) := by
        intro a b h
        rw [UInt64.le_iff_toNat_le, absDiff_toNat, absDiff_toNat] at h
        exact h
      have hge := UInt64.le_iff_toNat_le.1 hge
      cases tsRel with
      | true => simp only [if_true]; omega
      | false =>
        simp only [Bool.false_eq_true, if_false]
        have : ¬ absDiffUint64 r.time.start ref.time.start ≤ absDiffUint64 r.time.start (lastOf ref.time) := by
          simpa using htr.symm
        rw [UInt64.le_iff_toNat_le, absDiff_toNat, absDiff_toNat] at this
        omega
    unfold getWidthMax64Int
    rw [if_pos this]
  obtain ⟨g1, g2, g3, -, -, -⟩ := secondByte_fields tsRel tsAdd teRel teAdd (ws := getWidthMax64Int sd.toNat) (we := we) (width64 _) hwe
  generalize secondByte tsRel tsAdd teRel teAdd (getWidthMax64Int sd.toNat) we = b2 at *
  generalize htail : pe ++ (encodeIntMax64 sd.toNat ++ endEnc) = tail at *
  unfold decodeRange3dRelative at hx
  simp only [Res.ok_bind, f3, f4, f7, g1, g2, g3, hsd1, hpo, hto, if_true] at hx
  split at hx
  · simp at hx
  rename_i hne
  obtain ⟨⟨xs, pos1⟩, hx1, hx⟩ := Res.bind_eq_ok.1 hx
  obtain ⟨⟨xe, xo, pos2⟩, hx2, hx⟩ := Res.bind_eq_ok.1 hx
  obtain ⟨⟨xp, pos3⟩, hx3, hx⟩ := Res.bind_eq_ok.1 hx
  obtain ⟨sb, hx5, hx⟩ := Res.bind_eq_ok.1 hx
  obtain ⟨d, hx6, hx⟩ := Res.bind_eq_ok.1 hx
  obtain ⟨ts, hx7, hxz⟩ := Res.bind_eq_ok.1 hx
  dsimp only at hx1 hx2 hx3
  have fs : startBound b1 = s.bound := by
    rw [f1] at hne ⊢
    cases e <;> cases s <;> first | rfl | exact absurd rfl hne
  have hconv : ∀ n, n ≤ 2 + (ss.enc r.subspace.start).length + (ss.enc r.subspace.stop).length → p.conv n = n := by
    intro n hn
    exact Nat.mod_eq_of_lt (by omega)
  have hfrom : ∀ (t u : Bytes), sliceFrom (b1 :: b2 :: (t ++ u)) (2 + t.length) = .ok u := by
    intro t u
    rw [← List.cons_append, ← List.cons_append]
    exact sliceFrom_append _ _ _ (by simp; omega)
  have hs1 : xs = r.subspace.start ∧ pos1 = 2 + (startIds ss r s).length := by
    cases s with
    | refStart =>
      rw [fs] at hx1
      dsimp only [StartCode.bound] at hx1
      simp only [Res.ok.injEq, Prod.mk.injEq] at hx1
      refine ⟨?_, hx1.2.symm⟩
      rw [← hx1.1]
      simp only [isEqualRangeValue] at hsc
      by_cases hoo : r.subspace.openEnd = true ∧ ref.subspace.openEnd = true
      · exact (hopen hoo).symm
      · rw [if_neg (by simpa using hoo)] at hsc
        simp only [if_true, Bool.and_eq_true, beq_iff_eq] at hsc
        exact ((ho.eq_iff _ _).1 hsc.2).symm
    | refEnd =>
      rw [fs] at hx1
      dsimp only [StartCode.bound] at hx1
      split at hx1
      · rename_i hro
        simp only [Res.ok.injEq, Prod.mk.injEq] at hx1
        refine ⟨?_, hx1.2.symm⟩
        rw [← hx1.1]
        simp only [isEqualRangeValue] at hsc
        rw [if_neg (by simp at hro; simp [hro])] at hsc
        simp only [if_true, Bool.false_eq_true, if_false, Bool.and_eq_true, beq_iff_eq] at hsc
        exact ((ho.eq_iff _ _).1 hsc.2).symm
      · simp at hx1
    | given =>
      rw [fs] at hx1
      dsimp only [StartCode.bound] at hx1
      dsimp only [startIds] at hx1 ⊢
      rw [show sliceFrom (b1 :: b2 :: (ss.enc r.subspace.start ++ (endIds ss r e ++ (ps ++ tail)))) 2 =
        .ok (ss.enc r.subspace.start ++ (endIds ss r e ++ (ps ++ tail))) from hfrom [] _] at hx1
      rw [Res.ok_bind, hs.dec _ _ h1, Res.ok_bind] at hx1
      simp only [Res.ok.injEq, Prod.mk.injEq] at hx1
      refine ⟨hx1.1.symm, ?_⟩
      rw [← hx1.2, hs.len _ h1, hconv _ (by omega)]
  obtain ⟨rfl, rfl⟩ := hs1
  have hl1 : (startIds ss r s).length ≤ (ss.enc r.subspace.start).length := by
    cases s <;> simp [startIds]
  have hs2 : xo = r.subspace.openEnd ∧ (r.subspace.openEnd = false → xe = r.subspace.stop) ∧
      pos2 = 2 + ((startIds ss r s).length + (endIds ss r e).length) := by
    rw [f2] at hx2
    cases e with
    | none =>
      simp only [Res.ok.injEq, Prod.mk.injEq] at hx2
      simp only at hec
      exact ⟨by rw [← hx2.2.1, hec], by simp [hec], hx2.2.2.symm⟩
    | overwritten => exact absurd f1 hne
    | refEnd =>
      simp only [Res.ok.injEq, Prod.mk.injEq] at hx2
      obtain ⟨hec1, hec⟩ := hec
      simp only [isEqualRangeValue, hec1, Bool.false_and, Bool.false_eq_true, if_false, Bool.not_false, Bool.true_and,
        Bool.and_eq_true, beq_iff_eq] at hec
      refine ⟨by rw [← hx2.2.1, hec1], fun _ => ?_, hx2.2.2.symm⟩
      rw [← hx2.1]
      exact ((ho.eq_iff _ _).1 hec.2).symm
    | given =>
      simp only at hec
      dsimp only [endIds] at hx2 ⊢
      rw [hfrom, Res.ok_bind, hs.dec _ _ (h2 hec), Res.ok_bind] at hx2
      simp only [Res.ok.injEq, Prod.mk.injEq] at hx2
      refine ⟨by rw [← hx2.2.1, hec], fun _ => hx2.1.symm, ?_⟩
      rw [← hx2.2.2, hs.len _ (h2 hec), hconv _ (by omega)]
      omega
  obtain ⟨rfl, hxe, rfl⟩ := hs2
  have hsrt : startRel = true := by
    rw [hsr, hp, decide_eq_true_eq]
    exact Nat.le_trans (commonPrefixIndex_spec ref.path.start ref.path.stop).1
      (commonPrefixIndex_max _ _ _ (Nat.le_refl _) (Nat.le_refl _) rfl)
  subst hsrt
  simp only [if_true] at hx3 hps
  rw [← hp] at hx3 hps
  obtain ⟨⟨first, more, hpse, hfl⟩, hlen⟩ := relativeToItself hps
  have hdec := decodeRelativePath_encode h3 hps tail
  rw [← List.append_assoc (startIds ss r s), ← List.length_append, hfrom, Res.ok_bind, hdec, Res.ok_bind, hlen, Res.ok_bind] at hx3
  simp only [Res.ok.injEq, Prod.mk.injEq] at hx3
  have hw4 : getWidthMax32Int p.cc ≤ 4 := by rcases getWidthMax32Int_cases p.cc with h | h | h | h <;> omega
  have hl2 : (endIds ss r e).length ≤ (ss.enc r.subspace.stop).length := by
    cases e <;> simp [endIds]
  have hpos3 : pos3 = 2 + (startIds ss r s ++ endIds ss r e).length + getWidthMax32Int p.cc := by
    rw [← hx3.2]
    refine Nat.mod_eq_of_lt ?_
    rw [List.length_append]
    omega
  have hsb : sb = [0] := by
    dsimp only at hx5
    rw [show p.conv (pos3 + 1) = pos3 + 1 from Nat.mod_eq_of_lt (by rw [hpos3, List.length_append]; omega), hpse] at hx5
    have := slice_mid (b1 :: b2 :: (startIds ss r s ++ endIds ss r e ++ first)) [0] (more ++ tail) pos3 (pos3 + 1)
      (by rw [hpos3]; simp [hfl]; omega) (by rw [hpos3]; simp [hfl]; omega)
    rw [show b1 :: b2 :: (startIds ss r s ++ (endIds ss r e ++ (first ++ 0 :: more ++ tail))) =
      b1 :: b2 :: (startIds ss r s ++ endIds ss r e ++ first) ++ ([0] ++ (more ++ tail)) by simp, this] at hx5
    exact (Res.ok.inj hx5).symm
  have hd0 : d = 0 := by
    rw [hsb] at hx6
    exact (Res.ok.inj hx6).symm
  rw [← Res.ok.inj hxz]
  dsimp only
  subst hd0
  cases tsRel with
  | true =>
    left
    simp only [if_true, Res.ok.injEq] at hx7
    rw [← hx7]
    cases tsAdd <;> simp
  | false =>
    right
    simp only [Bool.false_eq_true, if_false] at hx7
    split at hx7
    · cases hx7
    · rw [← Res.ok.inj hx7]
      cases tsAdd <;> simp

example : ShortPath tinyParams [[5, 6]] ∧ encodeRange3dRelative (fixedCodec 1) orderSubspace tinyParams
      ⟨⟨[1], [3], false⟩, ⟨[[5, 6]], [[5, 6], [8]], true⟩, ⟨7, 0, true⟩⟩
      ⟨⟨[1], [4], false⟩, ⟨[[5, 6]], [[5, 6], [9]], false⟩, ⟨3, 70002, false⟩⟩ =
        .ok [125, 200, 3, 1, 0, 1, 1, 1, 8, 4, 3] ∧
    decodeRange3dRelative (fixedCodec 1) tinyParams [125, 200, 3, 1, 0, 1, 1, 1, 8, 4, 3]
      ⟨⟨[1], [4], false⟩, ⟨[[5, 6]], [[5, 6], [9]], false⟩, ⟨3, 70002, false⟩⟩ =
        .ok ⟨⟨[1], [3], false⟩, ⟨[[5, 6]], [], true⟩, ⟨3, 0, true⟩⟩ :=
  ⟨⟨⟨by decide, by decide, by decide⟩, by decide, by decide⟩, by decide +kernel, by decide +kernel⟩

/-- C31 is violated by every closed path range that starts where that of the reference starts and ends at a path that leads to
neither path of the reference: if it is decoded at all, the decoded end has fewer components than the end that was encoded. The
length of the start is taken to be shorter than it is, so that the number of components the end shares with the reference is read
as the number of its components. -/
theorem C31_violated_end (ss : Codec) (vs : Bytes → Prop) (hs : ss.Lawful vs) (ordS : Bytes → Bytes → Ordering)
    (ho : Decides BytesLt ordS) (p : PathParams) (r ref : Range3d)
    (h1 : vs r.subspace.start) (h2 : r.subspace.openEnd = false → vs r.subspace.stop)
    (h3 : ShortPath p r.path.start) (h4 : ShortPath p r.path.stop)
    (hbits : 7 + (ss.enc r.subspace.start).length + (ss.enc r.subspace.stop).length < 2 ^ p.bits)
    (hopen : (r.subspace.openEnd = true ∧ ref.subspace.openEnd = true) → r.subspace.start = ref.subspace.start)
    (hp : r.path.start = ref.path.start) (hpo : r.path.openEnd = false)
    (hn1 : ¬ r.path.stop <+: ref.path.start) (hn2 : ¬ r.path.stop <+: ref.path.stop)
    (enc : Bytes) (x : Range3d) (he : encodeRange3dRelative ss ordS p r ref = .ok enc)
    (hx : decodeRange3dRelative ss p enc ref = .ok x) :
    x.path.stop.length < r.path.stop.length := by
  obtain ⟨endRel, pe, t, hpe, hd⟩ := decodeRange3dRelative_end ss vs hs ordS ho p r ref h1 h2 h3 hbits hopen hp hpo enc x he hx
  rw [decodeRelativePath_shifted h4 hpe hd]
  generalize hb : (if endRel then ref.path.start else ref.path.stop) = b
  have hnb : ¬ r.path.stop <+: b := by
    cases endRel with
    | true => simp only [if_true] at hb; exact hb ▸ hn1
    | false => simp only [Bool.false_eq_true, if_false] at hb; exact hb ▸ hn2
  obtain ⟨i1, i2, i3⟩ := commonPrefixIndex_spec r.path.stop b
  refine Nat.lt_of_le_of_ne i1 fun heq => hnb ?_
  rw [heq, List.take_length] at i3
  exact i3 ▸ List.take_prefix _ _

example : ShortPath tinyParams [[1]] ∧ ShortPath tinyParams [[1], [7]] ∧
    encodeRange3dRelative (fixedCodec 1) orderSubspace tinyParams
      ⟨⟨[1], [3], false⟩, ⟨[[1]], [[1], [7]], false⟩, ⟨7, 0, true⟩⟩
      ⟨⟨[1], [4], false⟩, ⟨[[1]], [[1], [9]], false⟩, ⟨3, 70002, false⟩⟩ =
        .ok [123, 200, 3, 1, 0, 1, 1, 1, 7, 4, 3] ∧
    (do let x ← (decodeRange3dRelative (fixedCodec 1) tinyParams [123, 200, 3, 1, 0, 1, 1, 1, 7, 4, 3]
          ⟨⟨[1], [4], false⟩, ⟨[[1]], [[1], [9]], false⟩, ⟨3, 70002, false⟩⟩)
        Res.ok x.path) = .ok ⟨[[1]], [[1]], false⟩ ∧
    ¬ ([[1], [7]] : Path) <+: [[1]] ∧ ¬ ([[1], [7]] : Path) <+: [[1], [9]] :=
  ⟨⟨⟨by decide, by decide, by decide⟩, by decide, by decide⟩, ⟨⟨by decide, by decide, by decide⟩, by decide, by decide⟩,
    by decide +kernel, by decide +kernel, by decide, by decide⟩

end Willow.Props
