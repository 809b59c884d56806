import Verif.Props.RelativeRanges

/-! Where the end of a closed path range is read from (for C31). -/

namespace Willow.Props
open Willow Spec

/-- Relative to itself a path is written as its length and an empty path. -/
theorem relativeToItself_bytes {p : PathParams} {a : Path} {ps : Bytes} (h : encodeRelativePath p a a = .ok ps) :
    ∃ first, ps = first ++ encodeIntMax32 0 p.cc ∧ first.length = getWidthMax32Int p.cc := by
  have hi : commonPrefixIndex a a = a.length :=
    Nat.le_antisymm (commonPrefixIndex_spec a a).1 (commonPrefixIndex_max _ _ _ (Nat.le_refl _) (Nat.le_refl _) rfl)
  by_cases h0 : a.length = 0
  · unfold encodeRelativePath commonPrefix at h
    simp only [hi, h0, if_true] at h
    cases h
  have hc : commonPrefix a a = .ok a := by
    unfold commonPrefix
    simp only [hi, if_neg h0]
    rw [slice_take _ _ (Nat.le_refl _), List.take_length]
  have hd : sliceFrom a a.length = .ok ([] : Path) := by
    rw [sliceFrom_drop _ _ (Nat.le_refl _), List.drop_length]
  unfold encodeRelativePath at h
  simp only [hc, hd, Res.ok_bind, Res.ok.injEq] at h
  refine ⟨encodeIntMax32 (p.conv a.length) p.cc, ?_, encodeIntMax32_length _ _⟩
  rw [← h]
  congr 1
  have hz : p.conv ([] : Path).length = 0 := Nat.zero_mod _
  unfold encodePath
  rw [hz, show encodeComponents p [] = [] from rfl, List.append_nil]

/-- After a shared length of 0, the length that a relative path shares is read as a number of components. -/
theorem decodeRelativePath_shifted {p : PathParams} {a b c y : Path} {pe t : Bytes} (ha : ShortPath p a)
    (he : encodeRelativePath p a b = .ok pe)
    (hy : decodeRelativePath p (encodeIntMax32 0 p.cc ++ (pe ++ t)) c = .ok y) : y.length = commonPrefixIndex a b := by
  unfold encodeRelativePath at he
  split at he
  · rename_i l hl
    have hll := commonPrefix_length hl
    obtain ⟨hia, -, -⟩ := commonPrefixIndex_spec a b
    obtain ⟨suf, -, he⟩ := Res.bind_eq_ok.1 he
    have he := (Res.ok.inj he).symm
    subst he
    unfold decodeRelativePath at hy
    dsimp only at hy
    rw [slice_append_left _ _ _ (encodeIntMax32_length _ _).symm, Res.ok_bind,
      decode_encodeIntMax32 (Nat.zero_le _) (by decide)] at hy
    dsimp only at hy
    rw [slice_take _ _ (Nat.zero_le _), Res.ok_bind, sliceFrom_append _ _ _ (encodeIntMax32_length _ _).symm, Res.ok_bind] at hy
    split at hy
    · rename_i n suffix hd
      have hy := (Res.ok.inj hy).symm
      subst hy
      unfold decodePath at hd
      dsimp only at hd
      have hcount : l.length ≤ p.cc := by have := ha.1.count; omega
      rw [List.append_assoc, slice_append_left _ _ _ (encodeIntMax32_length _ _).symm, Res.ok_bind, conv_of_le hcount p.hcc,
        decode_encodeIntMax32 hcount (by have := ha.few; omega), Res.ok_bind] at hd
      have := (decodePathLoop_small _ _ _ hd (by simp)).1
      simpa [hll] using this
    · cases hy
    · cases hy
  · cases he

/-- What the end of a closed path range is decoded from, if the range starts at the path where the reference starts. -/
theorem decodeRange3dRelative_end (ss : Codec) (vs : Bytes → Prop) (hs : ss.Lawful vs) (ordS : Bytes → Bytes → Ordering)
    (ho : Decides BytesLt ordS) (p : PathParams) (r ref : Range3d)
    (h1 : vs r.subspace.start) (h2 : r.subspace.openEnd = false → vs r.subspace.stop)
    (h3 : ShortPath p r.path.start)
    (hbits : 7 + (ss.enc r.subspace.start).length + (ss.enc r.subspace.stop).length < 2 ^ p.bits)
    (hopen : (r.subspace.openEnd = true ∧ ref.subspace.openEnd = true) → r.subspace.start = ref.subspace.start)
    (hp : r.path.start = ref.path.start) (hpo : r.path.openEnd = false)
    (enc : Bytes) (x : Range3d) (he : encodeRange3dRelative ss ordS p r ref = .ok enc)
    (hx : decodeRange3dRelative ss p enc ref = .ok x) :
    ∃ (endRel : Bool) (pe t : Bytes),
      encodeRelativePath p r.path.stop (if endRel then ref.path.start else ref.path.stop) = .ok pe ∧
      decodeRelativePath p (encodeIntMax32 0 p.cc ++ (pe ++ t)) (if endRel then ref.path.start else ref.path.stop) = .ok x.path.stop := by
  obtain ⟨s, e, startRel, endRel, tsRel, tsAdd, teRel, teAdd, we, ps, pe, endEnc, sd, hsr, -, htr, hsc, hec, hps, hpe, hsd, -, hwe, -, rfl⟩ :=
    encodeRange3dRelative_inv' he
  obtain ⟨f1, f2, f3, f4, -, f6, f7⟩ := firstByte_fields s e startRel r.path.openEnd endRel r.time.openEnd
  generalize hb1 : firstByte s e startRel r.path.openEnd endRel r.time.openEnd = b1 at *
  obtain ⟨g1, g2, g3, -, -, -⟩ := secondByte_fields tsRel tsAdd teRel teAdd (ws := getWidthMax64Int sd.toNat) (we := we) (width64 _) hwe
  generalize secondByte tsRel tsAdd teRel teAdd (getWidthMax64Int sd.toNat) we = b2 at *
  generalize ht : encodeIntMax64 sd.toNat ++ endEnc = t at *
  generalize htail : pe ++ t = tail at *
  unfold decodeRange3dRelative at hx
  simp only [Res.ok_bind, f3, f4, f6, f7, g1, g2, g3, hpo, Bool.not_false, Bool.and_true, Bool.false_eq_true, if_false] at hx
  split at hx
  · simp at hx
  rename_i hne
  obtain ⟨⟨xs, pos1⟩, hx1, hx⟩ := Res.bind_eq_ok.1 hx
  obtain ⟨⟨xe, xo, pos2⟩, hx2, hx⟩ := Res.bind_eq_ok.1 hx
  obtain ⟨⟨xp, pos3⟩, hx3, hx⟩ := Res.bind_eq_ok.1 hx
  obtain ⟨⟨xq, pos4⟩, hx4, hx⟩ := Res.bind_eq_ok.1 hx
  obtain ⟨sb, -, hx⟩ := Res.bind_eq_ok.1 hx
  obtain ⟨d, -, hx⟩ := Res.bind_eq_ok.1 hx
  obtain ⟨ts, -, hx⟩ := Res.bind_eq_ok.1 hx
  obtain ⟨ts', -, hxz⟩ := Res.bind_eq_ok.1 hx
  dsimp only at hx1 hx2 hx3 hx4
  have fs : startBound b1 = s.bound := by
    rw [f1] at hne ⊢
    cases e <;> cases s <;> first | rfl | exact absurd rfl hne
  have hconv : ∀ n, n ≤ 2 + (ss.enc r.subspace.start).length + (ss.enc r.subspace.stop).length → p.conv n = n := by
    intro n hn
    exact Nat.mod_eq_of_lt (by omega)
  have hfrom : ∀ (t u : Bytes), sliceFrom (b1 :: b2 :: (t ++ u)) (2 + t.length) = .ok u := by
    intro t u
    rw [← List.cons_append, ← List.cons_append]
    exact sliceFrom_append _ _ _ (by simp; omega)
  have hs1 : xs = r.subspace.start ∧ pos1 = 2 + (startIds ss r s).length := by
    cases s with
    | refStart =>
      rw [fs] at hx1
      dsimp only [StartCode.bound] at hx1
      simp only [Res.ok.injEq, Prod.mk.injEq] at hx1
      refine ⟨?_, hx1.2.symm⟩
      rw [← hx1.1]
      simp only [isEqualRangeValue] at hsc
      by_cases hoo : r.subspace.openEnd = true ∧ ref.subspace.openEnd = true
      · exact (hopen hoo).symm
      · rw [if_neg (by simpa using hoo)] at hsc
        simp only [if_true, Bool.and_eq_true, beq_iff_eq] at hsc
        exact ((ho.eq_iff _ _).1 hsc.2).symm
    | refEnd =>
      rw [fs] at hx1
      dsimp only [StartCode.bound] at hx1
      split at hx1
      · rename_i hro
        simp only [Res.ok.injEq, Prod.mk.injEq] at hx1
        refine ⟨?_, hx1.2.symm⟩
        rw [← hx1.1]
        simp only [isEqualRangeValue] at hsc
        rw [if_neg (by simp at hro; simp [hro])] at hsc
        simp only [if_true, Bool.false_eq_true, if_false, Bool.and_eq_true, beq_iff_eq] at hsc
        exact ((ho.eq_iff _ _).1 hsc.2).symm
      · simp at hx1
    | given =>
      rw [fs] at hx1
      dsimp only [StartCode.bound] at hx1
      dsimp only [startIds] at hx1 ⊢
      rw [show sliceFrom (b1 :: b2 :: (ss.enc r.subspace.start ++ (endIds ss r e ++ (ps ++ tail)))) 2 =
        .ok (ss.enc r.subspace.start ++ (endIds ss r e ++ (ps ++ tail))) from hfrom [] _] at hx1
      rw [Res.ok_bind, hs.dec _ _ h1, Res.ok_bind] at hx1
      simp only [Res.ok.injEq, Prod.mk.injEq] at hx1
      refine ⟨hx1.1.symm, ?_⟩
      rw [← hx1.2, hs.len _ h1, hconv _ (by omega)]
  obtain ⟨rfl, rfl⟩ := hs1
  have hl1 : (startIds ss r s).length ≤ (ss.enc r.subspace.start).length := by
    cases s <;> simp [startIds]
  have hs2 : xo = r.subspace.openEnd ∧ (r.subspace.openEnd = false → xe = r.subspace.stop) ∧
      pos2 = 2 + ((startIds ss r s).length + (endIds ss r e).length) := by
    rw [f2] at hx2
    cases e with
    | none =>
      simp only [Res.ok.injEq, Prod.mk.injEq] at hx2
      simp only at hec
      exact ⟨by rw [← hx2.2.1, hec], by simp [hec], hx2.2.2.symm⟩
    | overwritten => exact absurd f1 hne
    | refEnd =>
      simp only [Res.ok.injEq, Prod.mk.injEq] at hx2
      obtain ⟨hec1, hec⟩ := hec
      simp only [isEqualRangeValue, hec1, Bool.false_and, Bool.false_eq_true, if_false, Bool.not_false, Bool.true_and,
        Bool.and_eq_true, beq_iff_eq] at hec
      refine ⟨by rw [← hx2.2.1, hec1], fun _ => ?_, hx2.2.2.symm⟩
      rw [← hx2.1]
      exact ((ho.eq_iff _ _).1 hec.2).symm
    | given =>
      simp only at hec
      dsimp only [endIds] at hx2 ⊢
      rw [hfrom, Res.ok_bind, hs.dec _ _ (h2 hec), Res.ok_bind] at hx2
      simp only [Res.ok.injEq, Prod.mk.injEq] at hx2
      refine ⟨by rw [← hx2.2.1, hec], fun _ => hx2.1.symm, ?_⟩
      rw [← hx2.2.2, hs.len _ (h2 hec), hconv _ (by omega)]
      omega
  obtain ⟨rfl, hxe, rfl⟩ := hs2
  have hsrt : startRel = true := by
    rw [hsr, hp, decide_eq_true_eq]
    exact Nat.le_trans (commonPrefixIndex_spec ref.path.start ref.path.stop).1
      (commonPrefixIndex_max _ _ _ (Nat.le_refl _) (Nat.le_refl _) rfl)
  subst hsrt
  simp only [if_true] at hx3 hps
  rw [← hp] at hx3 hps
  obtain ⟨⟨first, more, hpse, hfl⟩, hlen⟩ := relativeToItself hps
  have hdec := decodeRelativePath_encode h3 hps tail
  rw [← List.append_assoc (startIds ss r s), ← List.length_append, hfrom, Res.ok_bind, hdec, Res.ok_bind, hlen, Res.ok_bind] at hx3
  simp only [Res.ok.injEq, Prod.mk.injEq] at hx3
  have hw4 : getWidthMax32Int p.cc ≤ 4 := by rcases getWidthMax32Int_cases p.cc with h | h | h | h <;> omega
  have hl2 : (endIds ss r e).length ≤ (ss.enc r.subspace.stop).length := by
    cases e <;> simp [endIds]
  have hpos3 : pos3 = 2 + (startIds ss r s ++ endIds ss r e).length + getWidthMax32Int p.cc := by
    rw [← hx3.2]
    refine Nat.mod_eq_of_lt ?_
    rw [List.length_append]
    omega
  obtain ⟨first', hpse', hfl'⟩ := relativeToItself_bytes hps
  have hfrom' : sliceFrom (b1 :: b2 :: (startIds ss r s ++ (endIds ss r e ++ (ps ++ tail)))) pos3 =
      .ok (encodeIntMax32 0 p.cc ++ (pe ++ t)) := by
    rw [hpse', ← htail]
    rw [show b1 :: b2 :: (startIds ss r s ++ (endIds ss r e ++ (first' ++ encodeIntMax32 0 p.cc ++ (pe ++ t)))) =
      b1 :: b2 :: (startIds ss r s ++ endIds ss r e ++ first') ++ (encodeIntMax32 0 p.cc ++ (pe ++ t)) by simp]
    exact sliceFrom_append _ _ _ (by rw [hpos3]; simp [hfl']; omega)
  refine ⟨endRel, pe, t, hpe, ?_⟩
  simp only [hfrom', Res.ok_bind] at hx4
  rw [← Res.ok.inj hxz]
  dsimp only
  cases endRel with
  | true =>
    simp only [if_true] at hx4 ⊢
    obtain ⟨y, hy, hx4⟩ := Res.bind_eq_ok.1 hx4
    obtain ⟨n, -, hx4⟩ := Res.bind_eq_ok.1 hx4
    simp only [Res.ok.injEq, Prod.mk.injEq] at hx4
    rw [hy, hx4.1]
  | false =>
    simp only [Bool.false_eq_true, if_false] at hx4 ⊢
    split at hx4
    · cases hx4
    · obtain ⟨y, hy, hx4⟩ := Res.bind_eq_ok.1 hx4
      obtain ⟨n, -, hx4⟩ := Res.bind_eq_ok.1 hx4
      simp only [Res.ok.injEq, Prod.mk.injEq] at hx4
      rw [hy, hx4.1]

end Willow.Props
