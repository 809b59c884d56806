import Verif.Lemmas.PropsRelativeArea2
import Verif.Props.RelativeAreas

/-! Property theorem C30: encoding of an entry relative to an area. -/

namespace Willow.Props
open Willow Spec

/-- C30 is violated for every area for any subspace: the decoder never accepts what the
encoder writes (the header is written as decimal text). -/
theorem C30_violated_any (ss pd : Codec) (p : PathParams) (e : Entry) (outer : Area) (enc : Bytes)
    (ha : outer.anySubspace = true) (h : encodeEntryInNamespaceArea ss pd p e outer = .ok enc)
    (g g' : GB) (rest : Bytes) (hg : g.content = enc ++ rest) (ns : Bytes) (x : Entry) :
    decodeStreamEntryInNamespaceArea ss pd p outer ns g ≠ .ok (x, g') := by
  obtain ⟨c, t, rfl, h1, -⟩ := encodeEntryInNamespaceArea_head h
  intro hd
  obtain ⟨b, g1, hp, hd⟩ := Dec.bind_ok.1 hd
  cases peekByte_head hg hp
  simp only [h1, ha, Bool.false_eq_true, if_false, Bool.not_true] at hd
  obtain ⟨u, g2, -, hd⟩ := Dec.bind_ok.1 hd
  obtain ⟨u, g3, hl, -⟩ := Dec.bind_ok.1 hd
  simp at hl

example : (⟨[], true, [[5, 6]], ⟨0, 0, true⟩⟩ : Area).anySubspace = true ∧
    encodeEntryInNamespaceArea (fixedCodec 1) (fixedCodec 2) tinyParams exEntry ⟨[], true, [[5, 6]], ⟨0, 0, true⟩⟩ =
      .ok [0x32, 0x32, 0x38, 1, 1, 1, 7, 0x34, 0x32, 8, 9] := by decide +kernel

/-- C30 is violated for every area without a time end. -/
theorem C30_violated_open (ss pd : Codec) (p : PathParams) (e : Entry) (outer : Area) (enc : Bytes)
    (ha : outer.times.openEnd = true) (h : encodeEntryInNamespaceArea ss pd p e outer = .ok enc)
    (g g' : GB) (rest : Bytes) (hg : g.content = enc ++ rest) (ns : Bytes) (x : Entry) :
    decodeStreamEntryInNamespaceArea ss pd p outer ns g ≠ .ok (x, g') := by
  obtain ⟨c, t, rfl, h1, h2⟩ := encodeEntryInNamespaceArea_head h
  intro hd
  obtain ⟨b, g1, hp, hd⟩ := Dec.bind_ok.1 hd
  cases peekByte_head hg hp
  simp only [h1, h2, ha, Bool.false_eq_true, if_false, Bool.not_true] at hd
  obtain ⟨u, g2, -, hd⟩ := Dec.bind_ok.1 hd
  obtain ⟨u, g3, -, hd⟩ := Dec.bind_ok.1 hd
  obtain ⟨u, g4, -, hd⟩ := Dec.bind_ok.1 hd
  obtain ⟨u, g5, -, hd⟩ := Dec.bind_ok.1 hd
  obtain ⟨u, g6, -, hd⟩ := Dec.bind_ok.1 hd
  obtain ⟨u, g7, hl, -⟩ := Dec.bind_ok.1 hd
  simp at hl

example : (⟨[2], false, [[5, 6]], ⟨0, 0, true⟩⟩ : Area).times.openEnd = true ∧
    encodeEntryInNamespaceArea (fixedCodec 1) (fixedCodec 2) tinyParams exEntry ⟨[2], false, [[5, 6]], ⟨0, 0, true⟩⟩ =
      .ok [0x31, 0x30, 0x30, 2, 1, 1, 1, 7, 0x34, 0x32, 8, 9] := by decide +kernel

/-- C30 is violated for a closed area of one subspace too: the decoder panics, whatever room the array has. -/
theorem C30_violated_closed : ∃ (e : Entry) (outer : Area) (enc : Bytes),
    InArea outer ⟨e.subspaceId, e.path, e.timestamp⟩ ∧
    encodeEntryInNamespaceArea (fixedCodec 1) (fixedCodec 2) tinyParams e outer = .ok enc ∧
    ∀ m, decodeStreamEntryInNamespaceArea (fixedCodec 1) (fixedCodec 2) tinyParams outer e.namespaceId
      ⟨enc, [], [], m⟩ = .crash := by
  refine ⟨exEntry, ⟨[2], false, [[5, 6]], ⟨0, 70001, false⟩⟩, [0x36, 0x38, 2, 1, 1, 1, 7, 0x31, 0x32, 8, 9], ?_,
    by decide +kernel, ?_⟩
  · rw [← isIncludedArea_iff decides_subspace]; decide
  · intro m
    have key : decodeRelPathStream tinyParams [[5, 6]] ⟨[0x38, 2, 1, 1, 1, 7, 0x31, 0x32, 8, 9], [], [], m⟩ = .crash := by
      unfold decodeRelPathStream
      rw [Dec.bind_apply]
      show (sliceArray [0x38, 2, 1, 1, 1, 7, 0x31, 0x32, 8, 9] 0 1 >>= _) _ = _
      rw [Dec.bind_apply, sliceArray_ok (x := [0x38]) (by decide)]
      rfl
    show (decodeRelPathStream tinyParams [[5, 6]] >>= _) ⟨[0x38, 2, 1, 1, 1, 7, 0x31, 0x32, 8, 9], [], [], m⟩ = .crash
    rw [Dec.bind_apply, key]

/-- C30 is violated for every area of one subspace whose path has at most 47 components: the second digit of the header
is taken for the number of components that the path shares with that of the area. So the decoder never accepts what
the encoder writes, whatever the area (its path having so few components). -/
theorem C30_violated_always (ss pd : Codec) (p : PathParams) (e : Entry) (outer : Area) (enc : Bytes)
    (hin : InArea outer ⟨e.subspaceId, e.path, e.timestamp⟩) (hfew : outer.path.length ≤ 47)
    (h : encodeEntryInNamespaceArea ss pd p e outer = .ok enc)
    (g g' : GB) (rest : Bytes) (hg : g.content = enc ++ rest) (ns : Bytes) (x : Entry) :
    decodeStreamEntryInNamespaceArea ss pd p outer ns g ≠ .ok (x, g') := by
  cases ha : outer.anySubspace with
  | true => exact C30_violated_any ss pd p e outer enc ha h g g' rest hg ns x
  | false =>
    obtain ⟨c, d, t, rfl, h1, h2⟩ := encodeEntryInNamespaceArea_digits h (by
      rcases hin.2.2.2 with ht | ht
      · exact .inl ht
      · refine .inr ?_
        have hs := hin.2.2.1
        unfold TimeLt at ht hs
        rw [UInt64.le_iff_toNat_le, UInt64.toNat_sub_of_le _ _ (by rw [UInt64.le_iff_toNat_le]; exact Nat.le_of_not_lt hs)]
        have ht : e.timestamp.toNat < outer.times.stop.toNat := UInt64.lt_iff_toNat_lt.1 ht
        omega)
    intro hd
    obtain ⟨b, g1, hp, hd⟩ := Dec.bind_ok.1 hd
    cases peekByte_head hg hp
    obtain ⟨hc1, hb1, -⟩ := peekByte_inv hp
    simp only [h1, ha, Bool.false_eq_true, if_false, Bool.not_false, if_true] at hd
    obtain ⟨u, g2, hpr, hd⟩ := Dec.bind_ok.1 hd
    obtain ⟨u, g3, hl, hd⟩ := Dec.bind_ok.1 hd
    obtain ⟨u, g4, hrel, -⟩ := Dec.bind_ok.1 hd
    rw [prune_apply] at hpr
    cases hpr
    cases hl
    refine decodeRelPathStream_beyond (d := d) (t := t ++ rest) ?_ (by omega) hrel
    rw [prune_content _ _ (by cases hbb : g1.buf with
      | nil => rw [hbb] at hb1; cases hb1
      | cons _ _ => simp), hc1, hg]
    rfl

example : InArea ⟨[2], false, [[5, 6]], ⟨0, 70001, false⟩⟩ ⟨exEntry.subspaceId, exEntry.path, exEntry.timestamp⟩ ∧
    encodeEntryInNamespaceArea (fixedCodec 1) (fixedCodec 2) tinyParams exEntry ⟨[2], false, [[5, 6]], ⟨0, 70001, false⟩⟩ =
      .ok [0x36, 0x38, 2, 1, 1, 1, 7, 0x31, 0x32, 8, 9] := by
  refine ⟨?_, by decide +kernel⟩
  rw [← isIncludedArea_iff decides_subspace]; decide

/-- C30, partial: the decoder is right on the wire format it expects, once everything has
arrived: for every entry of an area and every correct choice of the flags it returns the
entry. Before everything has arrived, it returns nothing but the entry if the arrays have no room beyond their
bytes. Missing: the encoder writes something else (see the violations), and the decoder does
not wait for the payload length. -/
theorem C30_decoder_partial (ss pd : Codec) (vs vp : Bytes → Prop) (hs : ss.Lawful vs) (hp : pd.Lawful vp)
    (p : PathParams) (e : Entry) (outer : Area)
    (h2 : vs e.subspaceId) (h3 : ShortPath p e.path) (h4 : vp e.payloadDigest) (rel : Bytes)
    (hrel : encodeRelativePath p e.path outer.path = .ok rel) (withSubspace fromStart : Bool) (timeDiff : Nat)
    (htd : timeDiff < 2 ^ 64)
    (hss : withSubspace = true ∨ (outer.anySubspace = false ∧ e.subspaceId = outer.subspace))
    (htime : (fromStart = true ∧ e.timestamp = outer.times.start + UInt64.ofNat timeDiff) ∨
      (fromStart = false ∧ outer.times.openEnd = false ∧ e.timestamp = outer.times.stop - UInt64.ofNat timeDiff))
    (g : GB) (rest : Bytes) (hg : g.content = wireEntryInArea ss pd e rel withSubspace fromStart timeDiff ++ rest) :
    (g.mem = .exact → ∀ x g', decodeStreamEntryInNamespaceArea ss pd p outer e.namespaceId g = .ok (x, g') →
      x = e ∧ g'.content = rest) ∧
    (g.rest = [] → getWidthMax32Int p.cl ≤ 2 + (pd.enc e.payloadDigest).length + rest.length →
      ∃ g', decodeStreamEntryInNamespaceArea ss pd p outer e.namespaceId g = .ok (e, g') ∧ g'.content = rest) := by
  have key := inArea_decodes hs hp (outer := outer) h2 h3 h4 hrel htd hss htime
  refine ⟨fun hm x g' hx => ?_, fun hr hl => ?_⟩
  · obtain ⟨h5, h6, -⟩ := key.1 g rest x g' hm hg hx
    exact ⟨h5, h6⟩
  obtain ⟨g', h5, -, h6⟩ := key.2 trivial g rest (ready_of_nil hr) hg (by omega)
  exact ⟨g', h5, h6⟩

example : InArea ⟨[2], false, [[5, 6]], ⟨10, 70001, false⟩⟩ ⟨exEntry.subspaceId, exEntry.path, exEntry.timestamp⟩ ∧
    encodeRelativePath tinyParams exEntry.path [[5, 6]] = .ok [1, 1, 1, 7] ∧
    exEntry.timestamp = (70001 : UInt64) - UInt64.ofNat 1 ∧
    wireEntryInArea (fixedCodec 1) (fixedCodec 2) exEntry [1, 1, 1, 7] false false 1 =
      [0x04, 1, 1, 1, 7, 1, 1, 44, 8, 9] := by
  refine ⟨?_, by decide +kernel, by decide +kernel, by decide +kernel⟩
  rw [← isIncludedArea_iff decides_subspace]; decide

end Willow.Props
