import Verif.Lemmas.PropsInjective
import Verif.Lemmas.RangeInstant

/-! Property theorem C126: what is encoded can be told from the bytes. -/

namespace Willow.Props
open Willow Spec

/-- C126, partial: entries of which one encoding begins with the other are the same. Missing: paths that are not short. -/
theorem C126_entry_partial (ns ss pd : Codec) (vn vs vp : Bytes → Prop) (hn : ns.Lawful vn) (hs : ss.Lawful vs)
    (hp : pd.Lawful vp) (p : PathParams) (a b : Entry)
    (ha1 : vn a.namespaceId) (ha2 : vs a.subspaceId) (ha3 : ShortPath p a.path) (ha4 : vp a.payloadDigest)
    (hb1 : vn b.namespaceId) (hb2 : vs b.subspaceId) (hb3 : ShortPath p b.path) (hb4 : vp b.payloadDigest)
    (h : encodeEntry ns ss pd p a <+: encodeEntry ns ss pd p b) : a = b := by
  obtain ⟨t, h⟩ := h
  unfold encodeEntry at h
  simp only [List.append_assoc] at h
  obtain ⟨h1, h⟩ := codec_inj hn ha1 hb1 h
  obtain ⟨h2, h⟩ := codec_inj hs ha2 hb2 h
  obtain ⟨h3, h⟩ := encodePath_inj ha3 hb3 (shortPath_small ha3) (shortPath_small hb3) h
  obtain ⟨h4, h⟩ := bigIntToBytes_inj h
  obtain ⟨h5, h⟩ := bigIntToBytes_inj h
  obtain ⟨h6, -⟩ := codec_inj hp (t := []) ha4 hb4 (by simpa using h)
  cases a; cases b
  simp only at *
  simp [h1, h2, h3, h4, h5, h6]

example : (fixedCodec 1).Lawful (fun x => x.length = 1) ∧ ShortPath tinyParams [[5], [6, 7]] ∧
    ∃ x, encodeEntry (fixedCodec 1) (fixedCodec 1) (fixedCodec 2) tinyParams { exEntry with path := [[5], [6, 7]] } = x ∧
      x ≠ [] :=
  ⟨fixedCodec_lawful 1, ⟨⟨by decide, by decide, by decide⟩, by decide, by decide⟩, _, rfl, by decide⟩

/-- C126, partial: entries encoded relative to the same entry, of which one encoding begins with the other, are the
same. Missing: entries that cannot be encoded (`C26_violated`); paths that are not short. -/
theorem C126_relative_partial (ns ss pd : Codec) (vn vs vp : Bytes → Prop) (hn : ns.Lawful vn) (hs : ss.Lawful vs)
    (hp : pd.Lawful vp) (eqNs : Bytes → Bytes → Bool) (ordS : Bytes → Bytes → Ordering)
    (hq : ∀ a b, eqNs a b = true ↔ a = b) (ho : Decides BytesLt ordS)
    (p : PathParams) (a b ref : Entry)
    (ha1 : vn a.namespaceId) (ha2 : vs a.subspaceId) (ha3 : ShortPath p a.path) (ha4 : vp a.payloadDigest)
    (hb1 : vn b.namespaceId) (hb2 : vs b.subspaceId) (hb3 : ShortPath p b.path) (hb4 : vp b.payloadDigest)
    (x y : Bytes) (hx : encodeEntryRelativeEntry ns ss pd eqNs ordS p a ref = .ok x)
    (hy : encodeEntryRelativeEntry ns ss pd eqNs ordS p b ref = .ok y) (h : x <+: y) : a = b := by
  obtain ⟨t, rfl⟩ := h
  have share : ∀ (e : Entry) (z : Bytes), encodeEntryRelativeEntry ns ss pd eqNs ordS p e ref = .ok z →
      ∃ c, e.path.head? = some c ∧ ref.path.head? = some c := by
    intro e z hz
    refine Classical.not_not.1 fun hc => ?_
    rw [(C26_violated ns ss pd eqNs ordS p e ref).2 hc] at hz
    cases hz
  obtain ⟨x', hx', ka⟩ := C26_returns_partial ns ss pd vn vs vp hn hs hp eqNs ordS hq ho p a ref ha1 ha2 ha3 ha4
    (share a x hx)
  obtain ⟨y', hy', kb⟩ := C26_returns_partial ns ss pd vn vs vp hn hs hp eqNs ordS hq ho p b ref hb1 hb2 hb3 hb4
    (share b _ hy)
  obtain rfl : x = x' := Res.ok.inj (hx.symm.trans hx')
  obtain rfl : x ++ t = y' := Res.ok.inj (hy.symm.trans hy')
  let pad : Bytes := List.replicate (getWidthMax32Int p.cl) 0
  have hpad : pad.length = getWidthMax32Int p.cl := by simp [pad]
  obtain ⟨g1, e1, -⟩ := ka ⟨x ++ (t ++ pad), [], [], .exact⟩ (t ++ pad) (by simp [GB.content]) (.inr rfl)
    (by rw [List.length_append]; omega)
  obtain ⟨g2, e2, -⟩ := kb ⟨x ++ (t ++ pad), [], [], .exact⟩ pad (by simp [GB.content]) (.inr rfl) (by omega)
  rw [e1] at e2
  simp only [Res.ok.injEq, Prod.mk.injEq] at e2
  exact e2.1

example : encodeEntryRelativeEntry (fixedCodec 1) (fixedCodec 1) (fixedCodec 2) (· == ·) orderSubspace tinyParams
      { exEntry with path := [[5], [6, 7]] } { exEntry with path := [[5]] } = .ok [1, 1, 1, 2, 6, 7, 0, 1, 44, 8, 9] := by
  rfl

/-- C126, partial: entries of a namespace encoded relative to the same range, of which one encoding begins with the
other, are the same. Missing: entries that cannot be encoded (`C27_violated`, `C27_violated_end`); paths that are not short. -/
theorem C126_range_entry_partial (ss pd : Codec) (vs vp : Bytes → Prop) (hs : ss.Lawful vs)
    (hp : pd.Lawful vp) (ordS : Bytes → Bytes → Ordering) (ho : Decides BytesLt ordS)
    (p : PathParams) (a b : Entry) (outer : Range3d)
    (hns : a.namespaceId = b.namespaceId)
    (ha2 : vs a.subspaceId) (ha3 : ShortPath p a.path) (ha4 : vp a.payloadDigest)
    (hb2 : vs b.subspaceId) (hb3 : ShortPath p b.path) (hb4 : vp b.payloadDigest)
    (x y : Bytes) (hx : encodeEntryRelativeRange3d ss pd ordS p a outer = .ok x)
    (hy : encodeEntryRelativeRange3d ss pd ordS p b outer = .ok y) (h : x <+: y) : a = b := by
  obtain ⟨t, rfl⟩ := h
  have share : ∀ (e : Entry) (z : Bytes), encodeEntryRelativeRange3d ss pd ordS p e outer = .ok z →
      ∃ c, e.path.head? = some c ∧ outer.path.start.head? = some c ∧
        (outer.path.openEnd = false → outer.path.stop.head? = some c) := by
    intro e z hz
    refine Classical.not_not.1 fun hc => ?_
    cases hop : outer.path.openEnd with
    | true =>
      rw [(C27_violated ss pd ordS p e outer hop).2 (fun ⟨c, h1, h2⟩ => hc ⟨c, h1, h2, fun h => by
        rw [hop] at h; cases h⟩)] at hz
      cases hz
    | false =>
      rw [(C27_violated_end ss pd ordS p e outer hop).2 (fun ⟨c, h1, h2, h3⟩ => hc ⟨c, h1, h2, fun _ => h3⟩)] at hz
      cases hz
  obtain ⟨x', hx', ka⟩ := C27_returns_partial ss pd vs vp hs hp ordS ho p a outer ha2 ha3 ha4 (share a x hx)
  obtain ⟨y', hy', kb⟩ := C27_returns_partial ss pd vs vp hs hp ordS ho p b outer hb2 hb3 hb4 (share b _ hy)
  obtain rfl : x = x' := Res.ok.inj (hx.symm.trans hx')
  obtain rfl : x ++ t = y' := Res.ok.inj (hy.symm.trans hy')
  let pad : Bytes := List.replicate (getWidthMax32Int p.cl) 0
  have hpad : pad.length = getWidthMax32Int p.cl := by simp [pad]
  obtain ⟨g1, e1, -⟩ := ka ⟨x ++ (t ++ pad), [], [], .exact⟩ (t ++ pad) (by simp [GB.content]) (.inr (.inr rfl))
    (by rw [List.length_append]; omega)
  obtain ⟨g2, e2, -⟩ := kb ⟨x ++ (t ++ pad), [], [], .exact⟩ pad (by simp [GB.content]) (.inr (.inr rfl)) (by omega)
  rw [hns, e2] at e1
  simp only [Res.ok.injEq, Prod.mk.injEq] at e1
  exact e1.1.symm

example : encodeEntryRelativeRange3d (fixedCodec 1) (fixedCodec 2) orderSubspace tinyParams exEntry
      ⟨⟨[1], [3], false⟩, ⟨[[5, 6]], [[5, 6], [8]], false⟩, ⟨2, 70001, false⟩⟩ =
    .ok [193, 2, 1, 1, 1, 7, 1, 1, 44, 8, 9] ∧ ShortPath tinyParams exEntry.path :=
  ⟨by decide +kernel, ⟨by decide, by decide, by decide⟩, by decide, by decide⟩

/-- C126, partial: areas encoded relative to the same area, of which one encoding begins with the other, contain the
same positions. The areas are of one subspace if the other area is. Missing: areas that cannot be encoded
(`C28_violated_crash`); paths that are not short. -/
theorem C126_area_partial (ss : Codec) (vs : Bytes → Prop) (hs : ss.Lawful vs) (ordS : Bytes → Bytes → Ordering)
    (ho : Decides BytesLt ordS) (p : PathParams) (a b outer : Area)
    (ha1 : a.anySubspace = true → outer.anySubspace = true) (hb1 : b.anySubspace = true → outer.anySubspace = true)
    (ha2 : a.anySubspace = false → vs a.subspace) (hb2 : b.anySubspace = false → vs b.subspace)
    (ha3 : ShortPath p a.path) (hb3 : ShortPath p b.path) (x y : Bytes)
    (hx : encodeAreaInArea ss ordS p a outer = .ok x) (hy : encodeAreaInArea ss ordS p b outer = .ok y) (h : x <+: y) :
    ∀ z, InArea a z ↔ InArea b z :=
  let ⟨_, ht⟩ := h
  areaInArea_inj hs ho ha1 hb1 ha2 hb2 ha3 hb3 hx hy ht

example : encodeAreaInArea (fixedCodec 1) orderSubspace tinyParams exInner exOuterArea = .ok [0x24, 1, 34, 1, 1, 1, 1, 2] ∧
    encodeAreaInArea (fixedCodec 1) orderSubspace tinyParams { exInner with times := ⟨301, 70000, false⟩ } exOuterArea =
      .ok [0x24, 1, 35, 1, 1, 1, 1, 2] ∧ ShortPath tinyParams exInner.path :=
  ⟨by decide, by decide, ⟨by decide, by decide, by decide⟩, by decide, by decide⟩

/-- C126, partial: ranges encoded relative to the same range that share an encoding contain the same positions,
unless the subspace ranges of both have no end (`C126_violated_open`). Missing: ranges that cannot be encoded; the
encoding of one beginning with that of the other (`C126_violated_begins`); paths that are not short. -/
theorem C126_range_partial (ss : Codec) (vs : Bytes → Prop) (hs : ss.Lawful vs) (ordS : Bytes → Bytes → Ordering)
    (ho : Decides BytesLt ordS) (p : PathParams) (a b ref : Range3d)
    (ha : ValidRange3d a) (hb : ValidRange3d b) (hr : ValidRange3d ref)
    (ha1 : vs a.subspace.start) (ha2 : a.subspace.openEnd = false → vs a.subspace.stop)
    (hb1 : vs b.subspace.start) (hb2 : b.subspace.openEnd = false → vs b.subspace.stop)
    (ha3 : ShortPath p a.path.start) (ha4 : ShortPath p a.path.stop)
    (hb3 : ShortPath p b.path.start) (hb4 : ShortPath p b.path.stop)
    (hao : ¬ (a.subspace.openEnd = true ∧ ref.subspace.openEnd = true))
    (x : Bytes) (hx : encodeRange3dRelative ss ordS p a ref = .ok x) (hy : encodeRange3dRelative ss ordS p b ref = .ok x) :
    ∀ z, InRange3d a z ↔ InRange3d b z :=
  range3dRelative_inj hs ho ha hb hr ha1 ha2 hb1 hb2 ha3 ha4 hb3 hb4 hao hx hy

example : encodeRange3dRelative (fixedCodec 1) orderSubspace tinyParams
      ⟨⟨[2], [3], false⟩, ⟨[[5, 6]], [[5, 6], [7]], false⟩, ⟨2, 6000, false⟩⟩
      ⟨⟨[1], [3], false⟩, ⟨[[5, 6]], [[5, 6], [8]], false⟩, ⟨2, 70001, false⟩⟩ =
    .ok [234, 205, 2, 1, 0, 1, 1, 1, 7, 0, 23, 110] ∧
    ShortPath tinyParams [[5, 6], [7]] := by
  exact ⟨by decide +kernel, ⟨by decide, by decide, by decide⟩, by decide, by decide⟩

example : ValidRange3d ⟨⟨[2], [3], false⟩, ⟨[[5, 6]], [[5, 6], [7]], false⟩, ⟨2, 6000, false⟩⟩ := by
  rw [← isValidRange3d_iff decides_subspace]; decide

/-- C126 is violated: of ranges without an end of the subspaces, encoded relative to one without such an end, the
bytes do not tell in which subspace they start. -/
theorem C126_violated_open (ss : Codec) (ordS : Bytes → Bytes → Ordering) (p : PathParams) (r ref : Range3d)
    (h1 : r.subspace.openEnd = true) (h2 : ref.subspace.openEnd = true) (s : Bytes) :
    encodeRange3dRelative ss ordS p { r with subspace := { r.subspace with start := s } } ref =
      encodeRange3dRelative ss ordS p r ref := by
  unfold encodeRange3dRelative isEqualRangeValue
  simp only [h1, h2, Bool.and_self, if_true]

example : encodeRange3dRelative (fixedCodec 1) orderSubspace tinyParams
      ⟨⟨[2], [], true⟩, ⟨[[5, 6]], [[5, 6], [7]], false⟩, ⟨2, 6000, false⟩⟩
      ⟨⟨[1], [], true⟩, ⟨[[5, 6]], [[5, 6], [8]], false⟩, ⟨2, 70001, false⟩⟩ =
    .ok [74, 205, 1, 0, 1, 1, 1, 7, 0, 23, 110] := by decide +kernel

/-- C126 is violated: the encoding of a range can begin with that of another. -/
theorem C126_violated_begins : ∃ (a b ref : Range3d) (x : Bytes), ValidRange3d a ∧ ValidRange3d b ∧ ValidRange3d ref ∧
    encodeRange3dRelative (fixedCodec 1) orderSubspace tinyParams a ref = .ok x ∧
    encodeRange3dRelative (fixedCodec 1) orderSubspace tinyParams b ref = .ok (x ++ [0]) ∧
    ¬ ∀ z, InRange3d a z ↔ InRange3d b z := by
  let t (n : UInt64) : Range3d := ⟨⟨[1], [2], false⟩, ⟨[[5]], [[5], [6]], false⟩, ⟨0, n, false⟩⟩
  refine ⟨t 1, t 256, t 1, _, ?_, ?_, ?_, rfl, ?_, ?_⟩
  · rw [← isValidRange3d_iff decides_subspace]; decide
  · rw [← isValidRange3d_iff decides_subspace]; decide
  · rw [← isValidRange3d_iff decides_subspace]; decide
  · decide +kernel
  · intro h
    have := (h ⟨[1], [[5]], 5⟩).2 (by
      rw [← isIncluded3d_iff decides_subspace]; decide)
    rw [← isIncluded3d_iff decides_subspace] at this
    revert this
    decide

/-- C126 is violated: whatever the range of one instant that they are encoded relative to, the encoding of every range that ends with it is
the beginning of that of the range that ends 255 later, though the latter contains the end of the instant and the former does not. -/
theorem C126_violated_instant (ss : Codec) (ordS : Bytes → Bytes → Ordering) (p : PathParams) (r ref : Range3d)
    (h1 : ref.time.openEnd = false) (h2 : ref.time.start.toNat + 256 < 2 ^ 64) (h3 : ref.time.stop.toNat = ref.time.start.toNat + 1)
    (s : Bytes) (path : Path) (hs : InRange BytesLt r.subspace s) (hp : InRange PathLt r.path path) (ht : r.time.start ≤ ref.time.stop)
    (x : Bytes) (hx : encodeRange3dRelative ss ordS p { r with time := ⟨r.time.start, ref.time.stop, false⟩ } ref = .ok x) :
    encodeRange3dRelative ss ordS p { r with time := ⟨r.time.start, ref.time.stop + 255, false⟩ } ref = .ok (x ++ [0]) ∧
      InRange3d { r with time := ⟨r.time.start, ref.time.stop + 255, false⟩ } ⟨s, path, ref.time.stop⟩ ∧
      ¬ InRange3d { r with time := ⟨r.time.start, ref.time.stop, false⟩ } ⟨s, path, ref.time.stop⟩ := by
  have he : ref.time.stop + 255 = ref.time.start + 256 := by
    apply UInt64.toNat_inj.1
    rw [UInt64.toNat_add, UInt64.toNat_add, h3]
    show (ref.time.start.toNat + 1 + 255) % 2 ^ 64 = (ref.time.start.toNat + 256) % 2 ^ 64
    rfl
  have hsum : (ref.time.start + 256).toNat = ref.time.start.toNat + 256 := by
    rw [UInt64.toNat_add]
    exact Nat.mod_eq_of_lt h2
  rw [he]
  rw [UInt64.le_iff_toNat_le] at ht
  refine ⟨encodeRange3dRelative_instant ss ordS p r ref h1 h2 h3 x hx, ⟨hs, hp, ?_, .inr ?_⟩, fun h => ?_⟩
  · show ¬ ref.time.stop.toNat < r.time.start.toNat
    omega
  · show ref.time.stop.toNat < (ref.time.start + 256).toNat
    omega
  · rcases h.2.2.2 with h | h
    · cases h
    · exact Nat.lt_irrefl _ h

example : encodeRange3dRelative (fixedCodec 1) orderSubspace tinyParams ⟨⟨[1], [4], false⟩, ⟨[[5]], [[5], [6]], false⟩, ⟨900, 1001, false⟩⟩
      ⟨⟨[1], [2], false⟩, ⟨[[5]], [[5], [7]], false⟩, ⟨1000, 1001, false⟩⟩ = .ok [122, 132, 4, 1, 0, 1, 1, 1, 6, 100, 1] ∧
    encodeRange3dRelative (fixedCodec 1) orderSubspace tinyParams ⟨⟨[1], [4], false⟩, ⟨[[5]], [[5], [6]], false⟩, ⟨900, 1256, false⟩⟩
      ⟨⟨[1], [2], false⟩, ⟨[[5]], [[5], [7]], false⟩, ⟨1000, 1001, false⟩⟩ = .ok [122, 132, 4, 1, 0, 1, 1, 1, 6, 100, 1, 0] := by
  decide +kernel

/-- C126 is violated: whatever the entry and the area it is encoded in, there is an entry of another payload length,
and else the same, that has the same encoding. -/
theorem C126_violated_length (ss pd : Codec) (p : PathParams) (e : Entry) (outer : Area) :
    ∃ l, l ≠ e.payloadLength ∧
      encodeEntryInNamespaceArea ss pd p { e with payloadLength := l } outer = encodeEntryInNamespaceArea ss pd p e outer := by
  have hlt := e.payloadLength.toNat_lt
  obtain ⟨l, hl⟩ : ∃ l : UInt64, l.toNat = if e.payloadLength.toNat % 2 = 0 then e.payloadLength.toNat + 1 else
      e.payloadLength.toNat - 1 := by
    refine ⟨UInt64.ofNat (if e.payloadLength.toNat % 2 = 0 then e.payloadLength.toNat + 1 else e.payloadLength.toNat - 1), ?_⟩
    rw [UInt64.toNat_ofNat']
    apply Nat.mod_eq_of_lt
    split <;> omega
  refine ⟨l, ?_, ?_⟩
  · rintro rfl
    split at hl <;> omega
  · have hw : getWidthMax64Int l.toNat = getWidthMax64Int e.payloadLength.toNat := by
      rw [hl]
      unfold getWidthMax64Int
      split <;> (repeat' split) <;> omega
    unfold encodeEntryInNamespaceArea
    simp only [hw]

example : encodeEntryInNamespaceArea (fixedCodec 1) (fixedCodec 2) tinyParams exEntry ⟨[2], false, [[5, 6]], ⟨10, 70001, false⟩⟩ =
      encodeEntryInNamespaceArea (fixedCodec 1) (fixedCodec 2) tinyParams { exEntry with payloadLength := 301 }
        ⟨[2], false, [[5, 6]], ⟨10, 70001, false⟩⟩ ∧
    encodeEntryInNamespaceArea (fixedCodec 1) (fixedCodec 2) tinyParams exEntry ⟨[2], false, [[5, 6]], ⟨10, 70001, false⟩⟩ ≠
      .crash := by
  exact ⟨by decide +kernel, by decide +kernel⟩

/-- C126 is violated: of entries encoded in an area of all subspaces, the bytes do not tell the subspace. -/
theorem C126_violated_subspace (ss pd : Codec) (p : PathParams) (e : Entry) (outer : Area) (h : outer.anySubspace = true)
    (s : Bytes) :
    encodeEntryInNamespaceArea ss pd p { e with subspaceId := s } outer = encodeEntryInNamespaceArea ss pd p e outer := by
  unfold encodeEntryInNamespaceArea
  simp only [h, if_true]

example : encodeEntryInNamespaceArea (fixedCodec 1) (fixedCodec 2) tinyParams exEntry
      ⟨[], true, [[5, 6]], ⟨10, 70001, false⟩⟩ = .ok [49, 57, 54, 1, 1, 1, 7, 49, 50, 8, 9] := by decide +kernel

end Willow.Props
