import Verif.Props.RelativeRanges

/-! Lemmas for the theorems of `Verif/Props/Injective.lean`. -/

namespace Willow.Props

open Willow Spec

theorem codec_inj {c : Codec} {v : Bytes → Prop} (hc : c.Lawful v) {a b s t : Bytes} (ha : v a) (hb : v b)
    (h : c.enc a ++ s = c.enc b ++ t) : a = b ∧ s = t := by
  have h1 := hc.dec a s ha
  rw [h, hc.dec b t hb, Res.ok.injEq] at h1
  subst h1
  exact ⟨rfl, List.append_cancel_left h⟩

theorem bigIntToBytes_inj {a b : UInt64} {s t : Bytes} (h : bigIntToBytes a ++ s = bigIntToBytes b ++ t) :
    a = b ∧ s = t := by
  obtain ⟨h1, h2⟩ := List.append_inj h rfl
  refine ⟨UInt64.toNat_inj.1 ?_, h2⟩
  have := congrArg getBE h1
  unfold bigIntToBytes at this
  rwa [putU64_eq, putU64_eq, getBE_beBytes, getBE_beBytes, Nat.mod_eq_of_lt a.toNat_lt, Nat.mod_eq_of_lt b.toNat_lt] at this

/-- Numbers written in the same number of bytes. -/
theorem encodeIntMax64_inj {a b : UInt64} {s t : Bytes} (hw : getWidthMax64Int a.toNat = getWidthMax64Int b.toNat)
    (h : encodeIntMax64 a.toNat ++ s = encodeIntMax64 b.toNat ++ t) : a = b ∧ s = t := by
  obtain ⟨h1, h2⟩ := List.append_inj h (by rw [encodeIntMax64_length, encodeIntMax64_length, hw])
  refine ⟨UInt64.toNat_inj.1 ?_, h2⟩
  have := congrArg getBE h1
  rwa [getBE_encodeIntMax64 a.toNat_lt, getBE_encodeIntMax64 b.toNat_lt] at this

theorem encodeIntMax64_whole {a b : UInt64} (h : encodeIntMax64 a.toNat = encodeIntMax64 b.toNat) : a = b := by
  have := congrArg getBE h
  rw [getBE_encodeIntMax64 a.toNat_lt, getBE_encodeIntMax64 b.toNat_lt] at this
  exact UInt64.toNat_inj.1 this

/-- Where the encoding of a relative path ends does not depend on what it is relative to. -/
theorem relativePath_inj {p : PathParams} {a b r q : Path}
    (ha : ShortPath p a) (hb : ShortPath p b) {x y : Bytes} (hx : encodeRelativePath p a r = .ok x)
    (hy : encodeRelativePath p b q = .ok y) {s t : Bytes} (h : x ++ s = y ++ t) : s = t ∧ (r = q → a = b) := by
  obtain ⟨k, k1, k2, k3, rfl, -⟩ := encodeRelativePath_inv hx
  obtain ⟨l, l1, l2, l3, rfl, -⟩ := encodeRelativePath_inv hy
  rw [List.append_assoc, List.append_assoc] at h
  obtain ⟨h1, h2⟩ := List.append_inj h (by rw [encodeIntMax32_length, encodeIntMax32_length])
  have va := shortPath_drop ha k
  have vb := shortPath_drop hb l
  obtain ⟨h3, h4⟩ := encodePath_inj va vb (shortPath_small va) (shortPath_small vb) h2
  refine ⟨h4, ?_⟩
  rintro rfl
  have hk : k = l := by
    have ka := Nat.le_trans k1 ha.count
    have la := Nat.le_trans l1 hb.count
    rw [conv_of_le ka p.hcc, conv_of_le la p.hcc] at h1
    have d1 := decode_encodeIntMax32 ka (Nat.lt_of_le_of_lt k1 ha.few)
    rw [h1, decode_encodeIntMax32 la (Nat.lt_of_le_of_lt l1 hb.few), Res.ok.injEq] at d1
    exact d1.symm
  subst hk
  rw [← List.take_append_drop k a, ← List.take_append_drop k b, k3, l3, h3]

theorem areaFlags_inj {a b c d a' b' c' d' : Bool} {ws we ws' we' : Nat} (h1 : Width ws) (h2 : Width we)
    (h3 : Width ws') (h4 : Width we') (h : areaFlags a b c d ws we = areaFlags a' b' c' d' ws' we') :
    a = a' ∧ b = b' ∧ c = c' ∧ d = d' ∧ ws = ws' ∧ we = we' := by
  obtain ⟨k1, k2, k3, k4, k5, k6⟩ := header_area a b c d h1 h2
  obtain ⟨l1, l2, l3, l4, l5, l6⟩ := header_area a' b' c' d' h3 h4
  unfold areaFlags at h
  rw [h] at k1 k2 k3 k4 k5 k6
  exact ⟨k1.symm.trans l1, k2.symm.trans l2, k3.symm.trans l3, k4.symm.trans l4, k5.symm.trans l5, k6.symm.trans l6⟩

theorem sub_left_inj {a b c : UInt64} (h : a - c = b - c) : a = b := by
  have := congrArg (· + c) h
  simpa using this

theorem sub_right_inj {a b c : UInt64} (h : c - a = c - b) : a = b := by
  have h1 : ∀ x : UInt64, c - (c - x) = x := by
    intro x
    apply UInt64.toNat_inj.1
    have := c.toNat_lt
    have := x.toNat_lt
    simp only [UInt64.toNat_sub]
    omega
  rw [← h1 a, h, h1]

/-- A number known by the smaller of its distances from two others, and by which of them that is. -/
theorem bigIntMin_inj {x y u v : UInt64} (h : bigIntMin x u = bigIntMin y v)
    (hd : decide (bigIntMin x u = x) = decide (bigIntMin y v = y)) : x = y ∨ u = v := by
  have hor : ∀ a b, bigIntMin a b = a ∨ bigIntMin a b = b := by
    intro a b
    unfold bigIntMin
    split <;> simp
  by_cases h1 : bigIntMin x u = x
  · have h2 : bigIntMin y v = y := by simpa [h1] using hd
    exact .inl (h1.symm.trans (h.trans h2))
  · have h2 : ¬ bigIntMin y v = y := by simpa [h1] using hd
    have h3 := (hor x u).resolve_left h1
    have h4 := (hor y v).resolve_left h2
    exact .inr (h3.symm.trans (h.trans h4))

/-- Two areas of which one encoding begins with the other. -/
theorem areaInArea_inj {ss : Codec} {vs : Bytes → Prop} (hs : ss.Lawful vs) {ordS : Bytes → Bytes → Ordering}
    (ho : Decides BytesLt ordS) {p : PathParams} {a b outer : Area}
    (ha1 : a.anySubspace = true → outer.anySubspace = true) (hb1 : b.anySubspace = true → outer.anySubspace = true)
    (ha2 : a.anySubspace = false → vs a.subspace) (hb2 : b.anySubspace = false → vs b.subspace)
    (ha3 : ShortPath p a.path) (hb3 : ShortPath p b.path) {x y t : Bytes}
    (hx : encodeAreaInArea ss ordS p a outer = .ok x) (hy : encodeAreaInArea ss ordS p b outer = .ok y)
    (h : x ++ t = y) : SamePositions a b := by
  obtain ⟨u, hu, rfl⟩ := encodeAreaInArea_inv hx
  obtain ⟨v, hv, rfl⟩ := encodeAreaInArea_inv hy
  simp only [List.cons_append, List.append_assoc, List.cons.injEq] at h
  obtain ⟨hf, h⟩ := h
  obtain ⟨f1, f2, f3, f4, f5, f6⟩ := areaFlags_inj (width64 _) (width64 _) (width64 _) (width64 _) hf
  obtain ⟨e1, h⟩ := encodeIntMax64_inj f5 h
  have hstart : a.times.start = b.times.start := by
    rcases bigIntMin_inj e1 f3 with h | h
    · exact sub_left_inj h
    · exact sub_right_inj h
  rw [f2] at h
  have hend : a.times.openEnd = false → a.times.stop = b.times.stop := by
    intro ho1
    have ho2 := f2 ▸ ho1
    simp only [ho2, Bool.false_eq_true, if_false] at h
    obtain ⟨e2, -⟩ := encodeIntMax64_inj f6 h
    have : endOf a.times = endOf b.times := by
      rcases bigIntMin_inj e2 f4 with h | h
      · rw [hstart] at h
        exact sub_left_inj h
      · exact sub_right_inj h
    simpa [endOf, ho1, ho2] using this
  have h' : u ++ ((if isSubspaceSame ordS a outer = true then [] else ss.enc a.subspace) ++ t) =
      v ++ (if isSubspaceSame ordS b outer = true then [] else ss.enc b.subspace) := by
    cases ho1 : b.times.openEnd with
    | true => simpa [ho1] using h
    | false =>
      simp only [ho1, Bool.false_eq_true, if_false] at h
      exact (encodeIntMax64_inj f6 h).2
  obtain ⟨h2, h3⟩ := relativePath_inj ha3 hb3 hu hv h'
  have hpath := h3 rfl
  have hsub : a.anySubspace = b.anySubspace ∧ (a.anySubspace = false → a.subspace = b.subspace) := by
    have f1' : isSubspaceSame ordS a outer = isSubspaceSame ordS b outer := by simpa using f1
    cases hsm : isSubspaceSame ordS b outer with
    | true =>
      rw [hsm] at f1'
      unfold isSubspaceSame at f1' hsm
      cases hA : a.anySubspace <;> cases hB : b.anySubspace <;> cases hO : outer.anySubspace <;>
        simp_all [ho.eq_iff]
    | false =>
      have hsa := f1'.trans hsm
      have hA : a.anySubspace = false := by
        cases hA : a.anySubspace with
        | false => rfl
        | true => simp [isSubspaceSame, hA, ha1 hA] at hsa
      have hB : b.anySubspace = false := by
        cases hB : b.anySubspace with
        | false => rfl
        | true => simp [isSubspaceSame, hB, hb1 hB] at hsm
      refine ⟨hA.trans hB.symm, fun _ => ?_⟩
      rw [f1', hsm] at h2
      simp only [Bool.false_eq_true, if_false] at h2
      exact (codec_inj hs (t := []) (ha2 hA) (hb2 hB) (by simpa using h2)).1
  intro z
  unfold InArea InRange
  rw [hpath, hstart, f2, ← hsub.1]
  cases hA : a.anySubspace <;> cases hT : b.times.openEnd <;>
    simp only [Bool.false_eq_true, false_or, true_or, true_and]
  · rw [hsub.2 hA, hend (f2.trans hT)]
  · rw [hsub.2 hA]
  · rw [hend (f2.trans hT)]

theorem firstByte_inj {s s' : StartCode} {e e' : EndCode} {a b c d a' b' c' d' : Bool}
    (h : firstByte s e a b c d = firstByte s' e' a' b' c' d') :
    e = e' ∧ (e ≠ .overwritten → s = s') ∧ a = a' ∧ b = b' ∧ (b = false → c = c') ∧ d = d' := by
  obtain ⟨k1, k2, k3, k4, -, k6, k7⟩ := firstByte_fields s e a b c d
  obtain ⟨l1, l2, l3, l4, -, l6, l7⟩ := firstByte_fields s' e' a' b' c' d'
  rw [h] at k1 k2 k3 k4 k6 k7
  have h1 := k1.symm.trans l1
  have h2 := k2.symm.trans l2
  have h3 := k4.symm.trans l4
  have h4 := k6.symm.trans l6
  refine ⟨?_, ?_, k3.symm.trans l3, h3, ?_, k7.symm.trans l7⟩
  · cases e <;> cases e' <;> first | rfl | (simp at h2)
  · intro hne
    cases e <;> cases e' <;> cases s <;> cases s' <;>
      first | rfl | exact absurd rfl hne | (simp at h2; done) | (simp at h1; done)
  · intro hb
    subst h3
    simpa [hb] using h4

theorem secondByte_inj {a b c d a' b' c' d' : Bool} {ws we ws' we' : Nat} (h1 : Width ws) (h2 : Width we)
    (h3 : Width ws') (h4 : Width we') (h : secondByte a b c d ws we = secondByte a' b' c' d' ws' we') :
    a = a' ∧ b = b' ∧ c = c' ∧ d = d' ∧ ws = ws' ∧ we = we' := by
  obtain ⟨k1, k2, k3, k4, k5, k6⟩ := secondByte_fields a b c d h1 h2
  obtain ⟨l1, l2, l3, l4, l5, l6⟩ := secondByte_fields a' b' c' d' h3 h4
  rw [h] at k1 k2 k3 k4 k5 k6
  exact ⟨k1.symm.trans l1, k2.symm.trans l2, k4.symm.trans l4, k5.symm.trans l5, k3.symm.trans l3, k6.symm.trans l6⟩

/-- A number is known by its distance from another and by which of them is larger. -/
theorem absDiff_inj {a b c : UInt64} (h : absDiffUint64 a c = absDiffUint64 b c)
    (hd : decide (a ≥ c) = decide (b ≥ c)) : a = b := by
  apply UInt64.toNat_inj.1
  have h1 := congrArg UInt64.toNat h
  rw [absDiff_toNat, absDiff_toNat] at h1
  have h2 : a.toNat ≥ c.toNat ↔ b.toNat ≥ c.toNat := by
    have : (a ≥ c) ↔ (b ≥ c) := by simpa using hd
    simpa only [ge_iff_le, UInt64.le_iff_toNat_le] using this
  omega

theorem time_inRange {a b : GRange UInt64} (h1 : a.start = b.start) (h2 : a.openEnd = b.openEnd)
    (h3 : a.openEnd = false → a.stop = b.stop) (x : UInt64) : InRange TimeLt a x ↔ InRange TimeLt b x := by
  unfold InRange
  rw [h1, ← h2]
  cases h : a.openEnd
  · rw [h3 h]
  · simp

theorem path_inRange {a b : GRange Path} (h1 : a.start = b.start) (h2 : a.openEnd = b.openEnd)
    (h3 : a.openEnd = false → a.stop = b.stop) (x : Path) : InRange PathLt a x ↔ InRange PathLt b x := by
  unfold InRange
  rw [h1, ← h2]
  cases h : a.openEnd
  · rw [h3 h]
  · simp

theorem bytes_inRange {a b : GRange Bytes} (h1 : a.start = b.start) (h2 : a.openEnd = b.openEnd)
    (h3 : a.openEnd = false → a.stop = b.stop) (x : Bytes) : InRange BytesLt a x ↔ InRange BytesLt b x := by
  unfold InRange
  rw [h1, ← h2]
  cases h : a.openEnd
  · rw [h3 h]
  · simp

theorem equalValue {ordS : Bytes → Bytes → Ordering} (ho : Decides BytesLt ordS) {a b : GRange Bytes} {i j : Bool}
    (hn : ¬ (a.openEnd = true ∧ b.openEnd = true)) (h : isEqualRangeValue ordS a i b j = true) :
    a.openEnd = false ∧ b.openEnd = false ∧ (if i then a.start else a.stop) = (if j then b.start else b.stop) := by
  unfold isEqualRangeValue at h
  cases ha : a.openEnd <;> cases hb : b.openEnd <;> simp_all [ho.eq_iff]

/-- The end of a closed time range is known from what is written of it. -/
theorem timeEnd_inj {a b ref : GRange UInt64} (hr : ValidRange TimeLt ref) (ha : a.openEnd = false) (hb : b.openEnd = false)
    (h1 : decide (absDiffUint64 a.stop ref.start ≤ absDiffUint64 a.stop (lastOf ref)) =
      decide (absDiffUint64 b.stop ref.start ≤ absDiffUint64 b.stop (lastOf ref)))
    (h2 : decide (a.stop ≥ if decide (absDiffUint64 a.stop ref.start ≤ absDiffUint64 a.stop (lastOf ref)) = true
        then ref.start else lastOf ref) =
      decide (b.stop ≥ if decide (absDiffUint64 b.stop ref.start ≤ absDiffUint64 b.stop (lastOf ref)) = true
        then ref.start else lastOf ref))
    (h3 : (if ref.openEnd then absDiffUint64 a.stop (if decide (absDiffUint64 a.stop ref.start ≤
        absDiffUint64 a.stop (lastOf ref)) = true then ref.start else lastOf ref) else absDiffUint64 a.stop ref.start) =
      if ref.openEnd then absDiffUint64 b.stop (if decide (absDiffUint64 b.stop ref.start ≤
        absDiffUint64 b.stop (lastOf ref)) = true then ref.start else lastOf ref) else absDiffUint64 b.stop ref.start) :
    a.stop = b.stop := by
  rw [h1] at h2 h3
  cases hc : decide (absDiffUint64 b.stop ref.start ≤ absDiffUint64 b.stop (lastOf ref)) with
  | true =>
    simp only [hc, if_true] at h2 h3
    exact absDiff_inj (by simpa using h3) h2
  | false =>
    rw [hc] at h1
    simp only [hc, Bool.false_eq_true, if_false] at h2 h3
    cases hro : ref.openEnd with
    | true =>
      simp only [hro, if_true] at h3
      exact absDiff_inj h3 h2
    | false =>
      simp only [hro, Bool.false_eq_true, if_false] at h3
      have hl : lastOf ref = ref.stop := by unfold lastOf; simp [hro]
      rw [hl] at h1 hc
      have hv : ref.start < ref.stop := by
        rcases hr with h | h
        · rw [hro] at h; cases h
        · exact h
      have e1 := congrArg UInt64.toNat h3
      rw [absDiff_toNat, absDiff_toNat] at e1
      simp only [decide_eq_false_iff_not, UInt64.le_iff_toNat_le, absDiff_toNat] at h1 hc
      rw [UInt64.lt_iff_toNat_lt] at hv
      apply UInt64.toNat_inj.1
      omega

/-- Two ranges that share an encoding. -/
theorem range3dRelative_inj {ss : Codec} {vs : Bytes → Prop} (hs : ss.Lawful vs) {ordS : Bytes → Bytes → Ordering}
    (ho : Decides BytesLt ordS) {p : PathParams} {a b ref : Range3d}
    (ha : ValidRange3d a) (hb : ValidRange3d b) (hr : ValidRange3d ref)
    (ha1 : vs a.subspace.start) (ha2 : a.subspace.openEnd = false → vs a.subspace.stop)
    (hb1 : vs b.subspace.start) (hb2 : b.subspace.openEnd = false → vs b.subspace.stop)
    (ha3 : ShortPath p a.path.start) (ha4 : ShortPath p a.path.stop)
    (hb3 : ShortPath p b.path.start) (hb4 : ShortPath p b.path.stop)
    (hao : ¬ (a.subspace.openEnd = true ∧ ref.subspace.openEnd = true))
    {x : Bytes} (hx : encodeRange3dRelative ss ordS p a ref = .ok x) (hy : encodeRange3dRelative ss ordS p b ref = .ok x) :
    ∀ z, InRange3d a z ↔ InRange3d b z := by
  obtain ⟨s, e, sr, er, tsr, tsa, ter, tea, ps, pe, ee, sd, rfl, rfl, rfl, hs1, he1, hps, hpe, hsd, hta, hter, htea, hee,
    hen⟩ := encodeRange3dRelative_full hx
  obtain ⟨s', e', sr', er', tsr', tsa', ter', tea', ps', pe', ee', sd', hsr', her', htsr', hs1', he1', hps', hpe', hsd',
    hta', hter', htea', hee', hen'⟩ := encodeRange3dRelative_full hy
  have h := hen.symm.trans hen'
  rw [List.cons.injEq, List.cons.injEq] at h
  obtain ⟨hf, hg, h⟩ := h
  obtain ⟨f1, f2, f3, f4, f5, f6⟩ := firstByte_inj hf
  obtain ⟨g1, g2, g3, g4, g5, g6⟩ := secondByte_inj (width64 _) (width64 _) (width64 _) (width64 _) hg
  subst f1
  have hbo : ¬ (b.subspace.openEnd = true ∧ ref.subspace.openEnd = true) := by
    rintro ⟨h1, h2⟩
    cases e with
    | none => exact hao ⟨he1, h2⟩
    | overwritten => rw [he1'.1] at h1; cases h1
    | refEnd => rw [he1'.1] at h1; cases h1
    | given => rw [he1'] at h1; cases h1
  have hopen : a.subspace.openEnd = b.subspace.openEnd := by
    cases e with
    | none => exact he1.trans he1'.symm
    | overwritten => exact he1.1.trans he1'.1.symm
    | refEnd => exact he1.1.trans he1'.1.symm
    | given => exact he1.trans he1'.symm
  have key : ∀ {q : Range3d} {u : StartCode}, ValidRange3d q → ¬ (q.subspace.openEnd = true ∧ ref.subspace.openEnd = true) →
      (match u with
        | .refStart => isEqualRangeValue ordS q.subspace true ref.subspace true = true
        | .refEnd => isEqualRangeValue ordS q.subspace true ref.subspace false = true
        | .given => isEqualRangeValue ordS q.subspace true ref.subspace true = false ∧
          isEqualRangeValue ordS q.subspace true ref.subspace false = false) →
      q.subspace.openEnd = false ∧ isEqualRangeValue ordS q.subspace false ref.subspace true = true → u = .given := by
    intro q u hq hqo hu ⟨hc, he⟩
    obtain ⟨-, hro, heq⟩ := equalValue ho hqo he
    simp only [Bool.false_eq_true, if_false, if_true] at heq
    have hlt : BytesLt q.subspace.start q.subspace.stop := by
      rcases hq.1 with h | h
      · rw [hc] at h; cases h
      · exact h
    have hlt' : BytesLt ref.subspace.start ref.subspace.stop := by
      rcases hr.1 with h | h
      · rw [hro] at h; cases h
      · exact h
    cases u with
    | given => rfl
    | refStart =>
      obtain ⟨-, -, h2⟩ := equalValue ho hqo hu
      simp only [if_true] at h2
      rw [heq, h2] at hlt
      exact absurd hlt (bytesLt_strictTotal.irrefl _)
    | refEnd =>
      obtain ⟨-, -, h2⟩ := equalValue ho hqo hu
      simp only [Bool.false_eq_true, if_false, if_true] at h2
      rw [heq, h2] at hlt
      exact absurd hlt (bytesLt_strictTotal.asymm hlt')
  have hss : s = s' := by
    by_cases hov : e = .overwritten
    · subst hov
      rw [key ha hao hs1 he1, key hb hbo hs1' he1']
    · exact f2 hov
  subst hss
  -- the start of the subspace range
  obtain ⟨hstart, h⟩ : a.subspace.start = b.subspace.start ∧ endIds ss a e ++ (ps ++ (pe ++ (encodeIntMax64 sd.toNat ++ ee))) =
      endIds ss b e ++ (ps' ++ (pe' ++ (encodeIntMax64 sd'.toNat ++ ee'))) := by
    cases s with
    | refStart =>
      have h1 := (equalValue ho hao hs1).2.2
      have h2 := (equalValue ho hbo hs1').2.2
      exact ⟨h1.trans h2.symm, h⟩
    | refEnd =>
      have h1 := (equalValue ho hao hs1).2.2
      have h2 := (equalValue ho hbo hs1').2.2
      exact ⟨h1.trans h2.symm, h⟩
    | given => exact codec_inj hs ha1 hb1 h
  obtain ⟨hstop, h⟩ : (a.subspace.openEnd = false → a.subspace.stop = b.subspace.stop) ∧
      ps ++ (pe ++ (encodeIntMax64 sd.toNat ++ ee)) = ps' ++ (pe' ++ (encodeIntMax64 sd'.toNat ++ ee')) := by
    cases e with
    | none => exact ⟨fun hc => (by rw [he1] at hc; cases hc), h⟩
    | overwritten =>
      have h1 := (equalValue ho hao he1.2).2.2
      have h2 := (equalValue ho hbo he1'.2).2.2
      exact ⟨fun _ => h1.trans h2.symm, h⟩
    | refEnd =>
      have h1 := (equalValue ho hao he1.2).2.2
      have h2 := (equalValue ho hbo he1'.2).2.2
      exact ⟨fun _ => h1.trans h2.symm, h⟩
    | given =>
      obtain ⟨h1, h2⟩ := codec_inj hs (ha2 he1) (hb2 he1') h
      exact ⟨fun _ => h1, h2⟩
  -- the paths
  rw [f3] at hps
  obtain ⟨h, hp1⟩ := relativePath_inj ha3 hb3 hps hps' h
  obtain ⟨h, hp2⟩ := relativePath_inj ha4 hb4 hpe hpe' h
  have hp2' : a.path.openEnd = false → a.path.stop = b.path.stop := fun hc => hp2 (by rw [f5 hc])
  -- the times
  obtain ⟨hd, h⟩ := encodeIntMax64_inj g5 h
  have hts : a.time.start = b.time.start := by
    rw [hsd, hsd', g1] at hd
    rw [g1] at hta
    rw [hta, hta'] at g2
    exact absDiff_inj hd g2
  have hte : a.time.openEnd = false → a.time.stop = b.time.stop := by
    intro hc
    have hc' : b.time.openEnd = false := f6 ▸ hc
    have la : lastIn a.time ref.time = a.time.stop := by unfold lastIn; simp [hc]
    have lb : lastIn b.time ref.time = b.time.stop := by unfold lastIn; simp [hc']
    rw [la] at hter htea hee
    rw [lb] at hter' htea' hee'
    simp only [hc, hc', Bool.not_false, Bool.true_and] at hee hee'
    have h3 := encodeIntMax64_whole (hee.symm.trans (h.trans hee'))
    subst hter hter'
    exact timeEnd_inj hr.2.2 hc hc' g3 (htea.symm.trans (g4.trans htea')) h3
  intro z
  unfold InRange3d
  rw [bytes_inRange hstart hopen hstop, path_inRange (hp1 rfl) f4 hp2', time_inRange hts f6 hte]

end Willow.Props
