import Verif.Lemmas.PropsRelative
import Verif.Props.Encoding
import Verif.Spec.PropsRelativeAreas

/-! Lemmas for the theorems of `Verif/Props/RelativeAreas.lean`. -/

namespace Willow.Props

open Willow Spec

/-- A number read from one byte. -/
theorem readCompact_one {g g' : GB} {d : Nat} (h : readCompact 1 g = .ok (d, g')) : d < 256 := by
  unfold readCompact at h
  obtain ⟨acc, g1, h1, h⟩ := Dec.bind_ok.1 h
  obtain ⟨bs, g2, h2, h⟩ := Dec.bind_ok.1 h
  obtain ⟨v, g3, h3, h⟩ := Dec.bind_ok.1 h
  obtain ⟨_, g4, -, h⟩ := Dec.bind_ok.1 h
  cases h
  have hl : bs.length = 1 := by
    unfold sliceArray at h2
    split at h2
    · cases h2; simp; omega
    · cases h2
  obtain ⟨b, rfl⟩ : ∃ b, bs = [b] := by
    match bs, hl with
    | [b], _ => exact ⟨b, rfl⟩
  have : d = b.toNat := by
    have h4 : decodeIntMax64 [b] = .ok b.toNat := by simp [decodeIntMax64, getBE]
    rw [h4] at h3
    cases h3
    rfl
  rw [this]
  exact b.toNat_lt

theorem peekByte_is {g g' : GB} {b c : UInt8} {t : Bytes} (hg : g.content = c :: t)
    (h : peekByte g = .ok (b, g')) : b = c := by
  obtain ⟨h1, h2, -⟩ := peekByte_inv h
  rw [hg] at h1
  unfold GB.content at h1
  cases hb : g'.buf with
  | nil => rw [hb] at h2; simp at h2
  | cons d ds =>
    rw [hb] at h1 h2
    simp at h1 h2
    exact h2.symm.trans h1.1

/-- The fields of the flag byte of an area in an area. -/
theorem header_area (a b c d : Bool) {ws we : Nat} (hs : Width ws) (he : Width we) :
    let h := byteOf ((if a then 0x80 else 0) ||| (if b then 0x40 else 0) ||| (if c then 0x20 else 0) |||
      (if d then 0x10 else 0) ||| (if ws = 4 ∨ ws = 8 then 0x8 else 0) ||| (if ws = 2 ∨ ws = 8 then 0x4 else 0) |||
      (if we = 4 ∨ we = 8 then 0x2 else 0) ||| (if we = 2 ∨ we = 8 then 0x1 else 0))
    ((h &&& 0x80) == 0x80) = a ∧ ((h &&& 0x40) == 0x40) = b ∧ ((h &&& 0x20) == 0x20) = c ∧
      ((h &&& 0x10) == 0x10) = d ∧ 2 ^ ((0x3 : UInt8) &&& (h >>> 2)).toNat = ws ∧
      2 ^ ((0x3 : UInt8) &&& h).toNat = we := by
  rcases hs with rfl | rfl | rfl | rfl <;> rcases he with rfl | rfl | rfl | rfl <;>
    cases a <;> cases b <;> cases c <;> cases d <;> decide

/-- The same for the stream decoder, which always finds the start width 1. -/
theorem header_area_stream (a b c d : Bool) {ws we : Nat} (hs : Width ws) (he : Width we) :
    let h := byteOf ((if a then 0x80 else 0) ||| (if b then 0x40 else 0) ||| (if c then 0x20 else 0) |||
      (if d then 0x10 else 0) ||| (if ws = 4 ∨ ws = 8 then 0x8 else 0) ||| (if ws = 2 ∨ ws = 8 then 0x4 else 0) |||
      (if we = 4 ∨ we = 8 then 0x2 else 0) ||| (if we = 2 ∨ we = 8 then 0x1 else 0))
    2 ^ (((0x3 : UInt8) &&& h) >>> 2).toNat = 1 := by
  rcases hs with rfl | rfl | rfl | rfl <;> rcases he with rfl | rfl | rfl | rfl <;>
    cases a <;> cases b <;> cases c <;> cases d <;> decide

/-- The two encoded differences. -/
def startDiffOf (inner outer : Area) : UInt64 :=
  bigIntMin (inner.times.start - outer.times.start) (endOf outer.times - inner.times.start)

def endDiffOf (inner outer : Area) : UInt64 :=
  bigIntMin (endOf inner.times - inner.times.start) (endOf outer.times - endOf inner.times)

/-- The start and the end of the time range the decoders compute. -/
def decodedStart (inner outer : Area) : UInt64 :=
  if startDiffOf inner outer = inner.times.start - outer.times.start then
    outer.times.start + startDiffOf inner outer
  else outer.times.start - startDiffOf inner outer

def decodedStop (inner outer : Area) : UInt64 :=
  if endDiffOf inner outer = endOf inner.times - inner.times.start then
    decodedStart inner outer + endDiffOf inner outer
  else outer.times.stop - endDiffOf inner outer

/-- The flag byte. -/
def areaFlags (a b c d : Bool) (ws we : Nat) : UInt8 :=
  byteOf ((if a then 0x80 else 0) ||| (if b then 0x40 else 0) ||| (if c then 0x20 else 0) |||
    (if d then 0x10 else 0) ||| (if ws = 4 ∨ ws = 8 then 0x8 else 0) ||| (if ws = 2 ∨ ws = 8 then 0x4 else 0) |||
    (if we = 4 ∨ we = 8 then 0x2 else 0) ||| (if we = 2 ∨ we = 8 then 0x1 else 0))

theorem encodeAreaInArea_inv {ss : Codec} {ordS : Bytes → Bytes → Ordering} {p : PathParams} {inner outer : Area}
    {enc : Bytes} (h : encodeAreaInArea ss ordS p inner outer = .ok enc) :
    ∃ rel, encodeRelativePath p inner.path outer.path = .ok rel ∧
      enc = areaFlags (!isSubspaceSame ordS inner outer) inner.times.openEnd
          (decide (startDiffOf inner outer = inner.times.start - outer.times.start))
          (decide (endDiffOf inner outer = endOf inner.times - inner.times.start))
          (getWidthMax64Int (startDiffOf inner outer).toNat) (getWidthMax64Int (endDiffOf inner outer).toNat) ::
        (encodeIntMax64 (startDiffOf inner outer).toNat ++
          ((if inner.times.openEnd then [] else encodeIntMax64 (endDiffOf inner outer).toNat) ++
            (rel ++ (if isSubspaceSame ordS inner outer then [] else ss.enc inner.subspace)))) := by
  have e : ∀ (P : Prop) [Decidable P] (a b : Nat), (if P then a else b) = (if decide P = true then a else b) := by
    intros; simp
  have h' : (encodeRelativePath p inner.path outer.path >>= fun rel =>
      let ws := getWidthMax64Int (startDiffOf inner outer).toNat
      let we := getWidthMax64Int (endDiffOf inner outer).toNat
      Res.ok ([byteOf ((if !isSubspaceSame ordS inner outer then 0x80 else 0) |||
        (if inner.times.openEnd then 0x40 else 0) |||
        (if startDiffOf inner outer = inner.times.start - outer.times.start then 0x20 else 0) |||
        (if endDiffOf inner outer = endOf inner.times - inner.times.start then 0x10 else 0) |||
        (if ws = 4 ∨ ws = 8 then 0x8 else 0) ||| (if ws = 2 ∨ ws = 8 then 0x4 else 0) |||
        (if we = 4 ∨ we = 8 then 0x2 else 0) ||| (if we = 2 ∨ we = 8 then 0x1 else 0))] ++
        encodeIntMax64 (startDiffOf inner outer).toNat ++
        (if inner.times.openEnd then [] else encodeIntMax64 (endDiffOf inner outer).toNat) ++ rel ++
        (if isSubspaceSame ordS inner outer then [] else ss.enc inner.subspace))) = .ok enc := h
  obtain ⟨rel, hrel, h'⟩ := Res.bind_eq_ok.1 h'
  refine ⟨rel, hrel, ?_⟩
  dsimp only at h'
  rw [e (startDiffOf inner outer = _), e (endDiffOf inner outer = _), Res.ok.injEq] at h'
  rw [← h']
  simp only [areaFlags, List.append_assoc, List.cons_append, List.nil_append]

theorem areaFlags_fields (a b c d : Bool) {ws we : Nat} (hs : Width ws) (he : Width we) :
    ((areaFlags a b c d ws we &&& 0x80) == 0x80) = a ∧ ((areaFlags a b c d ws we &&& 0x40) == 0x40) = b ∧
      ((areaFlags a b c d ws we &&& 0x20) == 0x20) = c ∧ ((areaFlags a b c d ws we &&& 0x10) == 0x10) = d ∧
      2 ^ ((0x3 : UInt8) &&& (areaFlags a b c d ws we >>> 2)).toNat = ws ∧
      2 ^ ((0x3 : UInt8) &&& areaFlags a b c d ws we).toNat = we ∧
      2 ^ (((0x3 : UInt8) &&& areaFlags a b c d ws we) >>> 2).toNat = 1 := by
  have h1 := header_area a b c d hs he
  have h2 := header_area_stream a b c d hs he
  exact ⟨h1.1, h1.2.1, h1.2.2.1, h1.2.2.2.1, h1.2.2.2.2.1, h1.2.2.2.2.2, h2⟩

/-- What the decoder makes of an encoding without a subspace id. -/
theorem decodeAreaInArea_encode {ss : Codec} {ordS : Bytes → Bytes → Ordering} {p : PathParams} {inner outer : Area} {enc : Bytes} (hv : ShortPath p inner.path)
    (hsame : isSubspaceSame ordS inner outer = true) (h : encodeAreaInArea ss ordS p inner outer = .ok enc) :
    decodeAreaInArea ss p enc outer = .ok
      { path := inner.path, subspace := outer.subspace, anySubspace := false,
        times := ⟨decodedStart inner outer,
          if inner.times.openEnd then reallyBigInt else decodedStop inner outer, inner.times.openEnd⟩ } := by
  obtain ⟨rel, hrel, rfl⟩ := encodeAreaInArea_inv h
  obtain ⟨n, hn, -⟩ := C20_violated p inner.path outer.path rel hrel
  rw [hsame]
  generalize hc : decide (startDiffOf inner outer = inner.times.start - outer.times.start) = c
  generalize hd : decide (endDiffOf inner outer = endOf inner.times - inner.times.start) = d
  have hds : decodedStart inner outer = if c then outer.times.start + startDiffOf inner outer
      else outer.times.start - startDiffOf inner outer := by
    subst hc; simp [decodedStart]
  have hde : decodedStop inner outer = if d then decodedStart inner outer + endDiffOf inner outer
      else outer.times.stop - endDiffOf inner outer := by
    subst hd; simp [decodedStop]
  obtain ⟨f1, f2, f3, f4, f5, f6, -⟩ := areaFlags_fields false inner.times.openEnd c d
    (width64 (startDiffOf inner outer).toNat) (width64 (endDiffOf inner outer).toNat)
  have hl : ∀ x : UInt64, getWidthMax64Int x.toNat = (encodeIntMax64 x.toNat).length := fun x =>
    (encodeIntMax64_length _).symm
  have hdec : ∀ x : UInt64, decodeIntMax64 (encodeIntMax64 x.toNat) = .ok x.toNat := fun x =>
    decode_encodeIntMax64 x.toNat_lt
  have hp := decodeRelativePath_encode hv hrel
  have hp0 := hp []
  simp only [List.append_nil] at hp0
  have hslice : ∀ (b : UInt8) (a t : Bytes) (n : Nat), n = a.length → slice (b :: (a ++ t)) 1 (1 + n) = .ok a := by
    intro b a t n hn
    subst hn
    unfold slice
    simp [Nat.add_comm 1]
  have hfrom : ∀ (b : UInt8) (a t : Bytes) (n : Nat), n = a.length → sliceFrom (b :: (a ++ t)) (1 + n) = .ok t := by
    intro b a t n hn
    rw [← List.cons_append]
    exact sliceFrom_append _ _ _ (by simp; omega)
  unfold decodeAreaInArea
  simp only [Res.ok_bind, Bool.not_true, f1, f2, f3, f4, f5, f6, Bool.false_eq_true, if_false, if_true,
    List.append_nil]
  cases ho : inner.times.openEnd with
  | true =>
    simp only [if_true, List.nil_append]
    rw [hslice _ _ _ _ (hl _), hfrom _ _ _ _ (hl _)]
    simp only [Res.ok_bind, hdec, hp0, hn, ofNat_toNat64, hds]
  | false =>
    simp only [Bool.false_eq_true, if_false]
    rw [hslice _ _ _ _ (hl _)]
    rw [show sliceFrom (α := UInt8) (_ :: (encodeIntMax64 (startDiffOf inner outer).toNat ++
        (encodeIntMax64 (endDiffOf inner outer).toNat ++ rel)))
        (1 + getWidthMax64Int (startDiffOf inner outer).toNat + getWidthMax64Int (endDiffOf inner outer).toNat) =
        .ok rel by
      rw [← List.append_assoc, Nat.add_assoc]
      exact hfrom _ _ _ _ (by simp [hl])]
    rw [show slice (α := UInt8) (_ :: (encodeIntMax64 (startDiffOf inner outer).toNat ++
        (encodeIntMax64 (endDiffOf inner outer).toNat ++ rel))) (1 + getWidthMax64Int (startDiffOf inner outer).toNat)
        (1 + getWidthMax64Int (startDiffOf inner outer).toNat + getWidthMax64Int (endDiffOf inner outer).toNat) =
        .ok (encodeIntMax64 (endDiffOf inner outer).toNat) by
      unfold slice
      simp [hl, Nat.add_comm 1, Nat.add_assoc, Nat.add_left_comm]]
    simp only [Res.ok_bind, hdec, hp0, hn, ofNat_toNat64, hds, hde]

/-- The two conditions under which both time differences are decoded correctly. -/
theorem decodedTimes {inner outer : Area}
    (hstart : inner.times.start - outer.times.start ≤ endOf outer.times - inner.times.start)
    (hend : inner.times.openEnd = true ∨ outer.times.openEnd = false ∨
      endOf inner.times - inner.times.start ≤ endOf outer.times - endOf inner.times) :
    decodedStart inner outer = inner.times.start ∧
      (inner.times.openEnd = false → decodedStop inner outer = inner.times.stop) := by
  have hs : startDiffOf inner outer = inner.times.start - outer.times.start := by
    unfold startDiffOf bigIntMin
    rw [if_neg (by simp only [UInt64.le_iff_toNat_le, UInt64.lt_iff_toNat_lt, gt_iff_lt] at *; omega)]
  have h1 : decodedStart inner outer = inner.times.start := by
    simp only [decodedStart, hs, if_true]; grind
  refine ⟨h1, fun hi => ?_⟩
  have hei : endOf inner.times = inner.times.stop := by simp [endOf, hi]
  unfold decodedStop
  rw [h1]
  split
  · rename_i h; rw [h, hei]; grind
  · rename_i h
    have he : endDiffOf inner outer = endOf outer.times - endOf inner.times := by
      unfold endDiffOf bigIntMin at h ⊢
      split
      · rfl
      · rename_i h'; rw [if_neg h'] at h; simp at h
    rcases hend with h' | h' | h'
    · simp [hi] at h'
    · rw [he, hei]; simp only [endOf, h']; grind
    · exfalso
      apply h
      unfold endDiffOf bigIntMin
      rw [if_neg (by simp only [UInt64.le_iff_toNat_le, UInt64.lt_iff_toNat_lt, gt_iff_lt] at *; omega)]

theorem samePositions_of {x inner : Area} (h1 : x.anySubspace = inner.anySubspace) (h2 : x.subspace = inner.subspace)
    (h3 : x.path = inner.path) (h4 : x.times.start = inner.times.start) (h5 : x.times.openEnd = inner.times.openEnd)
    (h6 : inner.times.openEnd = false → x.times.stop = inner.times.stop) : SamePositions x inner := by
  intro y
  unfold InArea InRange
  rw [h1, h2, h3, h4, h5]
  cases ho : inner.times.openEnd with
  | true => simp
  | false => rw [h6 ho]

/-- What the stream decoder makes of an encoding: the subspace may differ. -/
theorem decodes_areaInArea {ss : Codec} {vs : Bytes → Prop} (hs : ss.Lawful vs) {ordS : Bytes → Bytes → Ordering}
    (ho : Decides BytesLt ordS) {p : PathParams} {inner outer : Area}
    {enc : Bytes} (hv : ShortPath p inner.path)
    (hsub : isSubspaceSame ordS inner outer = false → vs inner.subspace) (hany : inner.anySubspace = false)
    (hw : startDiffOf inner outer < 256) (h : encodeAreaInArea ss ordS p inner outer = .ok enc) (all : Bool) :
    Decodes (PathArrives p all inner.path) all (getWidthMax32Int p.cl) (decodeStreamAreaInArea ss p outer) enc
      { path := inner.path, subspace := inner.subspace, anySubspace := false,
        times := ⟨decodedStart inner outer,
          if inner.times.openEnd then 0 else decodedStop inner outer, inner.times.openEnd⟩ } := by
  obtain ⟨rel, hrel, rfl⟩ := encodeAreaInArea_inv h
  have hsame : isSubspaceSame ordS inner outer = true → inner.subspace = outer.subspace := by
    intro h
    simp [isSubspaceSame, hany] at h
    exact (ho.eq_iff _ _).1 h.2
  generalize isSubspaceSame ordS inner outer = same at hsame hsub ⊢
  generalize hc : decide (startDiffOf inner outer = inner.times.start - outer.times.start) = c
  generalize hd : decide (endDiffOf inner outer = endOf inner.times - inner.times.start) = d
  have hds : decodedStart inner outer = if c then outer.times.start + startDiffOf inner outer
      else outer.times.start - startDiffOf inner outer := by
    subst hc; simp [decodedStart]
  have hde : decodedStop inner outer = if d then decodedStart inner outer + endDiffOf inner outer
      else outer.times.stop - endDiffOf inner outer := by
    subst hd; simp [decodedStop]
  obtain ⟨f1, f2, f3, f4, -, f6, f7⟩ := areaFlags_fields (!same) inner.times.openEnd c d
    (width64 (startDiffOf inner outer).toNat) (width64 (endDiffOf inner outer).toNat)
  unfold decodeStreamAreaInArea
  refine Decodes.peek (k := fun _ => _) rfl ?_
  simp only [f1, f2, f3, f4, f6, f7]
  have h1 : 1 = getWidthMax64Int (startDiffOf inner outer).toNat := by
    simp only [UInt64.lt_iff_toNat_lt] at hw
    have : (256 : UInt64).toNat = 256 := rfl
    unfold getWidthMax64Int
    rw [if_pos (by omega)]
  have hss : Decodes (PathArrives p all inner.path) all 0 (if (!same) = true then ss.decStream else pure outer.subspace)
      (if same = true then [] else ss.enc inner.subspace) inner.subspace := by
    cases same with
    | true => simpa using Decodes.pure (hsame rfl).symm
    | false => simpa using Decodes.codec hs (hsub rfl)
  cases hop : inner.times.openEnd with
  | true =>
    simp only [if_true, List.nil_append]
    refine Decodes.bind (s1 := 0) (Decodes.compact (UInt64.toNat_lt _) h1) ?_ (by omega) (Nat.le_refl _)
    refine Decodes.bind ((Decodes.relPath hv hrel).mono fun h => h.rel _) ?_ (by omega) (Nat.zero_le _)
    rw [← List.append_nil (if same = true then [] else ss.enc inner.subspace)]
    refine Decodes.bind (s1 := 0) hss (Decodes.pure ?_) (by omega) (Nat.le_refl _)
    rw [hds, ofNat_toNat64]
  | false =>
    simp only [Bool.false_eq_true, if_false]
    refine Decodes.bind (s1 := 0) (Decodes.compact (UInt64.toNat_lt _) h1) ?_ (by omega) (Nat.le_refl _)
    refine Decodes.bind (s1 := 0) (Decodes.compact (UInt64.toNat_lt _) rfl) ?_ (by omega) (Nat.le_refl _)
    refine Decodes.bind ((Decodes.relPath hv hrel).mono fun h => h.rel _) ?_ (by omega) (Nat.zero_le _)
    rw [← List.append_nil (if same = true then [] else ss.enc inner.subspace)]
    refine Decodes.bind (s1 := 0) hss (Decodes.pure ?_) (by omega) (Nat.le_refl _)
    rw [hde, hds, ofNat_toNat64, ofNat_toNat64]

/-- The announced length of an open-ended area that starts where the outer one does. -/
theorem encodeAreaInAreaLength_open (ordS : Bytes → Bytes → Ordering) (p : PathParams) (inner outer : Area) (m : Nat)
    (hm : encodePathRelativeLength p inner.path outer.path = .ok m)
    (h1 : inner.times.openEnd = true) (h2 : inner.times.start = outer.times.start) :
    encodeAreaInAreaLength ordS p inner outer =
      .ok (1 + (if isSubspaceSame ordS inner outer then 0 else inner.subspace.length) + m + getWidthMax64Int 0) := by
  have hz : ∀ x : UInt64, bigIntMin 0 x = 0 := by
    intro x; unfold bigIntMin; simp
  unfold encodeAreaInAreaLength
  simp [hm, h1, h2, hz]

end Willow.Props
