import Verif.Lemmas.PropsEntryLayout
import Verif.Props.Injective

/-! # The layout of paths, keys, entries, areas and ranges (C129) -/

namespace Willow.Props

open Spec

/-- C129, partial: paths have their layout. Missing here and below: limits of 2^32 or more. -/
theorem C129_path_partial (p : PathParams) (hcc : p.cc < 2 ^ 32) (hcl : p.cl < 2 ^ 32) (path : Path) (hv : ValidPath p path) :
    PathLayout p path (natBytes (encodePath p path)) := path_layout p hcc hcl path (valid_small hv).1 (valid_small hv).2

example : ValidPath tinyParams [[5, 6], [7]] ∧ natBytes (encodePath tinyParams [[5, 6], [7]]) = [2, 2, 5, 6, 1, 7] := by
  refine ⟨⟨by decide, by decide, by decide⟩, by decide⟩

/-- C129, partial: paths relative to others have their layout. -/
theorem C129_relative_path_partial (p : PathParams) (hcc : p.cc < 2 ^ 32) (hcl : p.cl < 2 ^ 32) (path ref : Path) (hv : ValidPath p path)
    (enc : Bytes) (h : encodeRelativePath p path ref = .ok enc) : RelativeLayout p path ref (natBytes enc) :=
  relative_layout p hcc hcl path ref hv enc h

example : encodeRelativePath tinyParams [[5, 6], [7]] [[5, 6], [9]] = .ok [1, 1, 1, 7] := by decide

/-- C129, partial: keys of the store have their layout. -/
theorem C129_key_partial (p : PathParams) (hcc : p.cc < 2 ^ 32) (hcl : p.cl < 2 ^ 32) (k : Position) (hv : ValidPath p k.path) :
    KeyLayout p k (natBytes (encodeKey p k)) := key_layout p hcc hcl k hv

example : encodeKey tinyParams ⟨[8, 9], [[5, 6]], 258⟩ = [0, 0, 0, 0, 0, 0, 1, 2, 1, 2, 5, 6, 8, 9] := by decide

/-- C129: values of the store have their layout. -/
theorem C129_values (v : Values) : ValuesLayout v (natBytes (encodeValues v)) := values_layout v

example : encodeValues ⟨300, [1, 2], [3]⟩ = [0, 0, 0, 0, 0, 0, 1, 44, 0, 0, 0, 0, 0, 0, 0, 2, 1, 2, 0, 0, 0, 0, 0, 0, 0, 1, 3] := by
  decide

/-- C129, partial: entries have their layout. -/
theorem C129_entry_partial (ns ss pd : Codec) (p : PathParams) (hcc : p.cc < 2 ^ 32) (hcl : p.cl < 2 ^ 32) (e : Entry)
    (hv : ValidPath p e.path) : EntryLayout ns ss pd p e (natBytes (encodeEntry ns ss pd p e)) := entry_layout ns ss pd p hcc hcl e hv

example : ValidPath tinyParams exEntry.path ∧ encodeEntry (fixedCodec 1) (fixedCodec 1) (fixedCodec 2) tinyParams exEntry =
    [1, 2, 2, 2, 5, 6, 1, 7, 0, 0, 0, 0, 0, 1, 17, 112, 0, 0, 0, 0, 0, 0, 1, 44, 8, 9] := by
  refine ⟨⟨by decide, by decide, by decide⟩, by decide +kernel⟩

/-- C129, partial: entries relative to others have their layout. -/
theorem C129_relative_entry_partial (ns ss pd : Codec) (eqNs : Bytes → Bytes → Bool) (ordS : Bytes → Bytes → Ordering) (p : PathParams)
    (hns : ∀ a b, eqNs a b = true ↔ a = b) (ho : Decides BytesLt ordS) (hcc : p.cc < 2 ^ 32) (hcl : p.cl < 2 ^ 32)
    (e ref : Entry) (hv : ValidPath p e.path) (enc : Bytes)
    (h : encodeEntryRelativeEntry ns ss pd eqNs ordS p e ref = .ok enc) : RelativeEntryLayout ns ss pd p e ref (natBytes enc) :=
  relativeEntry_layout ns ss pd eqNs ordS p hns ho.eq_iff hcc hcl e ref hv enc h

example : encodeEntryRelativeEntry (fixedCodec 1) (fixedCodec 1) (fixedCodec 2) (· == ·) orderSubspace tinyParams exEntry exRef =
    .ok [0x81, 1, 1, 1, 1, 7, 1, 1, 44, 8, 9] ∧ ValidPath tinyParams exEntry.path :=
  ⟨by decide +kernel, by decide, by decide, by decide⟩

/-- C129, partial: entries relative to ranges have their layout. -/
theorem C129_entry_in_range_partial (ss pd : Codec) (ordS : Bytes → Bytes → Ordering) (p : PathParams)
    (ho : Decides BytesLt ordS) (hcc : p.cc < 2 ^ 32) (hcl : p.cl < 2 ^ 32)
    (e : Entry) (outer : Range3d) (hv : ValidPath p e.path) (enc : Bytes)
    (h : encodeEntryRelativeRange3d ss pd ordS p e outer = .ok enc) : EntryInRangeLayout ss pd p e outer (natBytes enc) :=
  entryInRange_layout ss pd ordS p ho.eq_iff hcc hcl e outer hv enc h

example : encodeEntryRelativeRange3d (fixedCodec 1) (fixedCodec 2) orderSubspace tinyParams exEntry
      ⟨⟨[1], [3], false⟩, ⟨[[5, 6]], [[5, 6], [8]], false⟩, ⟨2, 70001, false⟩⟩ =
    .ok [193, 2, 1, 1, 1, 7, 1, 1, 44, 8, 9] ∧ ValidPath tinyParams exEntry.path :=
  ⟨by decide +kernel, by decide, by decide, by decide⟩

/-- C129, partial: areas relative to areas whose times contain theirs have their layout. -/
theorem C129_area_partial (ss : Codec) (ordS : Bytes → Bytes → Ordering) (p : PathParams)
    (ho : Decides BytesLt ordS) (hcc : p.cc < 2 ^ 32) (hcl : p.cl < 2 ^ 32)
    (inner outer : Area) (hv : ValidPath p inner.path) (ht : TimesInside inner.times outer.times) (enc : Bytes)
    (h : encodeAreaInArea ss ordS p inner outer = .ok enc) : AreaInAreaLayout ss p inner outer (natBytes enc) :=
  areaInArea_layout ss ordS p ho.eq_iff hcc hcl inner outer hv ht enc h

example : encodeAreaInArea (fixedCodec 1) orderSubspace tinyParams exInner exOuterArea = .ok [0x24, 1, 34, 1, 1, 1, 1, 2] ∧
    ValidPath tinyParams exInner.path ∧ TimesInside exInner.times exOuterArea.times :=
  ⟨by decide, ⟨by decide, by decide, by decide⟩, by decide, by decide, by decide⟩

/-- C129: exactly which ranges relative to ranges have their layout, of those that can be encoded: their subspaces have an end
or start where those of the other range start, if that has no end either (see `C126_violated_open`); they do not end
where those of the other start (see `C129_violated_end`); and their times have an end (see `C129_violated_open`), which is not nearer to the end
of those of the other, if there is one, than to their start (see `C129_violated_distance`). -/
theorem C129_range_exact (ss : Codec) (ordS : Bytes → Bytes → Ordering) (p : PathParams)
    (ho : Decides BytesLt ordS) (hcc : p.cc < 2 ^ 32) (hcl : p.cl < 2 ^ 32)
    (r ref : Range3d) (hv : ValidPath p r.path.start) (hv' : ValidPath p r.path.stop) (enc : Bytes)
    (h : encodeRange3dRelative ss ordS p r ref = .ok enc) : RangeLayout ss p r ref (natBytes enc) ↔
      (r.subspace.openEnd = true → ref.subspace.openEnd = true → r.subspace.start = ref.subspace.start) ∧
      (r.subspace.openEnd = false → ref.subspace.openEnd = false → r.subspace.stop ≠ ref.subspace.start) ∧
      r.time.openEnd = false ∧
      (ref.time.openEnd = true ∨ distance r.time.stop ref.time.start ≤ distance r.time.stop ref.time.stop) :=
  range_layout ss ordS p ho.eq_iff hcc hcl r ref hv hv' enc h

example : encodeRange3dRelative (fixedCodec 1) orderSubspace tinyParams
      ⟨⟨[2], [3], false⟩, ⟨[[5, 6]], [[5, 6], [7]], false⟩, ⟨2, 6000, false⟩⟩
      ⟨⟨[1], [3], false⟩, ⟨[[5, 6]], [[5, 6], [8]], false⟩, ⟨2, 7000, false⟩⟩ =
    .ok [234, 193, 2, 1, 0, 1, 1, 1, 7, 0, 23, 110] ∧ ¬ distance 6000 2 ≤ distance 6000 7000 := by
  exact ⟨by decide +kernel, by decide⟩

/-- C129, partial: ranges relative to ranges have their layout. Missing: ranges without an end of the times
(`C129_violated_open`); ranges whose subspaces have no end, relative to ranges of the same kind that start elsewhere
(`C126_violated_open`); ranges whose subspaces end where those of the
other start (`C129_violated_end`); ranges whose times end nearer to the end of those of the other
(`C129_violated_distance`). -/
theorem C129_range_partial (ss : Codec) (ordS : Bytes → Bytes → Ordering) (p : PathParams)
    (ho : Decides BytesLt ordS) (hcc : p.cc < 2 ^ 32) (hcl : p.cl < 2 ^ 32)
    (r ref : Range3d) (hv : ValidPath p r.path.start) (hv' : ValidPath p r.path.stop)
    (hopen : r.subspace.openEnd = true → ref.subspace.openEnd = true → r.subspace.start = ref.subspace.start)
    (hstop : r.subspace.openEnd = false → ref.subspace.openEnd = false → r.subspace.stop ≠ ref.subspace.start)
    (hc : r.time.openEnd = false) (hr : ref.time.openEnd = true ∨
      distance r.time.stop ref.time.start ≤ distance r.time.stop ref.time.stop) (enc : Bytes)
    (h : encodeRange3dRelative ss ordS p r ref = .ok enc) : RangeLayout ss p r ref (natBytes enc) :=
  (range_layout ss ordS p ho.eq_iff hcc hcl r ref hv hv' enc h).2 ⟨hopen, hstop, hc, hr⟩

example : encodeRange3dRelative (fixedCodec 1) orderSubspace tinyParams
      ⟨⟨[2], [3], false⟩, ⟨[[5, 6]], [[5, 6], [7]], false⟩, ⟨2, 6000, false⟩⟩
      ⟨⟨[1], [3], false⟩, ⟨[[5, 6]], [[5, 6], [8]], false⟩, ⟨2, 70001, false⟩⟩ =
    .ok [234, 205, 2, 1, 0, 1, 1, 1, 7, 0, 23, 110] ∧ distance 6000 2 ≤ distance 6000 70001 := by
  exact ⟨by decide +kernel, by decide⟩

/-- C129 is violated by all ranges whose subspaces end where those of the other range start: instead of adding the code of
the end, the encoder overwrites the code of the start. -/
theorem C129_violated_end (ss : Codec) (ordS : Bytes → Bytes → Ordering) (p : PathParams)
    (ho : Decides BytesLt ordS) (hcc : p.cc < 2 ^ 32) (hcl : p.cl < 2 ^ 32)
    (r ref : Range3d) (hv : ValidPath p r.path.start) (hv' : ValidPath p r.path.stop)
    (h1 : r.subspace.openEnd = false) (h2 : ref.subspace.openEnd = false) (h3 : r.subspace.stop = ref.subspace.start) (enc : Bytes)
    (h : encodeRange3dRelative ss ordS p r ref = .ok enc) : ¬ RangeLayout ss p r ref (natBytes enc) :=
  fun hl => ((range_layout ss ordS p ho.eq_iff hcc hcl r ref hv hv' enc h).1 hl).2.1 h1 h2 h3

example : encodeRange3dRelative (fixedCodec 1) orderSubspace tinyParams
      ⟨⟨[1], [2], false⟩, ⟨[[5, 6]], [[5, 6], [7]], false⟩, ⟨2, 6000, false⟩⟩
      ⟨⟨[2], [3], false⟩, ⟨[[5, 6]], [[5, 6], [8]], false⟩, ⟨2, 70001, false⟩⟩ =
    .ok [26, 205, 1, 1, 0, 1, 1, 1, 7, 0, 23, 110] := by decide +kernel

/-- C129 is violated by all ranges whose times end nearer to the end of those of the other range than to their start: the
distance to the start is written, though the second byte speaks of the end and of the width of the other distance. -/
theorem C129_violated_distance (ss : Codec) (ordS : Bytes → Bytes → Ordering) (p : PathParams)
    (ho : Decides BytesLt ordS) (hcc : p.cc < 2 ^ 32) (hcl : p.cl < 2 ^ 32)
    (r ref : Range3d) (hv : ValidPath p r.path.start) (hv' : ValidPath p r.path.stop)
    (h1 : ref.time.openEnd = false) (h2 : distance r.time.stop ref.time.stop < distance r.time.stop ref.time.start) (enc : Bytes)
    (h : encodeRange3dRelative ss ordS p r ref = .ok enc) : ¬ RangeLayout ss p r ref (natBytes enc) := fun hl => by
  rcases ((range_layout ss ordS p ho.eq_iff hcc hcl r ref hv hv' enc h).1 hl).2.2.2 with h3 | h3
  · rw [h1] at h3; cases h3
  · omega

example : encodeRange3dRelative (fixedCodec 1) orderSubspace tinyParams
      ⟨⟨[1], [2], false⟩, ⟨[[5, 6]], [[5, 6], [7]], false⟩, ⟨2, 1000, false⟩⟩
      ⟨⟨[1], [3], false⟩, ⟨[[5, 6]], [[5, 6], [8]], false⟩, ⟨0, 1001, false⟩⟩ =
    .ok [122, 192, 2, 1, 0, 1, 1, 1, 7, 2, 3, 232] ∧ distance 1000 1001 < distance 1000 0 := by
  exact ⟨by decide +kernel, by decide⟩

/-- C129 is violated by all ranges whose times have no end: a distance is written for an end that the range does not have. -/
theorem C129_violated_open (ss : Codec) (ordS : Bytes → Bytes → Ordering) (p : PathParams)
    (ho : Decides BytesLt ordS) (hcc : p.cc < 2 ^ 32) (hcl : p.cl < 2 ^ 32)
    (r ref : Range3d) (hv : ValidPath p r.path.start) (hv' : ValidPath p r.path.stop)
    (h1 : r.time.openEnd = true) (enc : Bytes)
    (h : encodeRange3dRelative ss ordS p r ref = .ok enc) : ¬ RangeLayout ss p r ref (natBytes enc) := fun hl => by
  have := ((range_layout ss ordS p ho.eq_iff hcc hcl r ref hv hv' enc h).1 hl).2.2.1
  rw [h1] at this; cases this

example : encodeRange3dRelative (fixedCodec 1) orderSubspace tinyParams
      ⟨⟨[1], [2], false⟩, ⟨[[5, 6]], [[5, 6], [7]], false⟩, ⟨2, 0, true⟩⟩
      ⟨⟨[1], [3], false⟩, ⟨[[5, 6]], [[5, 6], [8]], false⟩, ⟨0, 0, true⟩⟩ =
    .ok [123, 196, 2, 1, 0, 1, 1, 1, 7, 2, 255, 255, 255, 255, 255, 255, 255, 255] := by decide +kernel

end Willow.Props
