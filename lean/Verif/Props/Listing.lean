import Verif.Lemmas.Listing
import Verif.Props.Payload
import Verif.Props.Storage

/-! Properties of range queries and listings (C39, C40). -/

namespace Willow.Props

open Willow Spec

/-! ## C39 -/

/-- C39, partial: a query returns one entry per stored position in the range, with everything
stored about it, but after as many blank entries. Missing: the blank entries are not stored
(see `C39_violated`). -/
theorem C39_query_partial (env : StoreEnv) (st : StoreState) (r : Range3d) (val : KdKey → Values)
    (h : ∀ k ∈ st.kd, (val k).payloadDigest.length < 2 ^ 64 ∧ (val k).authDigest.length < 2 ^ 64 ∧
      st.kv.get (encodeKey env.p k.pos) = some (encodeValues (val k))) :
    ∃ rs, entryQuery env st r = .ok (List.replicate (howMany (fun k => InRange3d r k.pos) st.kd) nothingFilledIn ++ rs) ∧
      rs.Perm ((those (fun k => InRange3d r k.pos) st.kd).map fun k =>
        ((⟨k.pos, val k⟩ : Item).entry env.namespaceId, (val k).authDigest)) := by
  unfold entryQuery
  dsimp only
  refine ⟨(env.lib.query st.kd r).map fun k => ((⟨k.pos, val k⟩ : Item).entry env.namespaceId, (val k).authDigest), ?_, ?_⟩
  · rw [entryQueryLoop_ok env st val _ _ fun k hk => h k ((env.lib.mem_query st.kd r k).1 hk).1, howMany_in,
      (env.lib.perm st.kd r).length_eq]
    rfl
  · rw [those_in]
    exact (env.lib.perm st.kd r).map _

/-- C39 is violated: a query for a range with one stored entry returns two entries, the first
of which is blank and was never stored. -/
theorem C39_violated (lib : KdLib) : ∃ (st : StoreState) (r : Range3d) (e : Entry × Bytes),
    st.kd.length = 1 ∧ st.kv.length = 1 ∧ entryQuery (testEnv lib) st r = .ok [nothingFilledIn, e] := by
  have hv : ∀ k ∈ [(⟨⟨[7], [[1]], 5⟩, []⟩ : KdKey)], (([1, 9] : Bytes).length < 2 ^ 64) ∧ ([1, 7] : Bytes).length < 2 ^ 64 ∧
      KV.get [(encodeKey tinyParams ⟨[7], [[1]], 5⟩, encodeValues ⟨1, [1, 9], [1, 7]⟩)] (encodeKey tinyParams k.pos) =
        some (encodeValues ⟨1, [1, 9], [1, 7]⟩) := by
    intro k hk
    cases List.mem_singleton.1 hk
    exact ⟨by decide, by decide, rfl⟩
  obtain ⟨rs, h1, h2⟩ := C39_query_partial (testEnv lib)
    { StoreState.empty with
      kv := [(encodeKey tinyParams ⟨[7], [[1]], 5⟩, encodeValues ⟨1, [1, 9], [1, 7]⟩)], kd := [⟨⟨[7], [[1]], 5⟩, []⟩] }
    ⟨⟨[7], [], true⟩, ⟨[], [], true⟩, ⟨0, 0, true⟩⟩ (fun _ => ⟨1, [1, 9], [1, 7]⟩) hv
  rw [those_in] at h2
  rw [howMany_in] at h1
  have := h2.eq_singleton
  subst this
  exact ⟨_, _, _, rfl, rfl, h1⟩

example : ∀ k ∈ [(⟨⟨[7], [[1]], 5⟩, []⟩ : KdKey), ⟨⟨[8], [[1]], 6⟩, []⟩],
    KV.get [(encodeKey tinyParams ⟨[7], [[1]], 5⟩, encodeValues ⟨k.pos.time, [1, 9], [1, 7]⟩),
      (encodeKey tinyParams ⟨[8], [[1]], 6⟩, encodeValues ⟨k.pos.time, [1, 9], [1, 7]⟩)] (encodeKey tinyParams k.pos) =
      some (encodeValues ⟨k.pos.time, [1, 9], [1, 7]⟩) := by
  decide +kernel

/-! ## C40 -/

/-- C40, partial: for an area of one subspace, a listing is an initial part of the matching
entries, newest first, where an entry at the end of the time range counts as matching and the
time range is taken as closed. It respects the limits, and only stops early when the maximum
count is reached or the next entry would reach the maximum size (it is empty if the maximum count
is 2^63 or more); without limits it is complete. Missing: areas of any subspace, open time ranges,
the excluded end of the time range, and total sizes of 2^64 or more (see the violations). -/
theorem C40_listing_partial (p : PathParams) (items : List Item) (ns : Bytes)
    (aoi : AreaOfInterest)
    (hitems : ∀ i ∈ items, ShortPath p i.pos.path ∧ i.val.payloadDigest.length < 2 ^ 64 ∧ i.val.authDigest.length < 2 ^ 64)
    (hsorted : (items.map fun i => (encodeKey p i.pos, encodeValues i.val)).Pairwise fun a b => BytesLt a.1 b.1)
    (htotal : payloadTotal (items.map (Item.entry ns)) < 2 ^ 64) :
    ∃ es wanted, listValues p (items.map fun i => (encodeKey p i.pos, encodeValues i.val)) aoi ns = .ok es ∧
      wanted.Perm (those (fun e => e.subspaceId = aoi.area.subspace ∧ aoi.area.path <+: e.path ∧
        aoi.area.times.start ≤ e.timestamp ∧ e.timestamp ≤ aoi.area.times.stop) (items.map (Item.entry ns))) ∧
      wanted.Pairwise (fun a b => b.timestamp ≤ a.timestamp) ∧
      es <+: wanted ∧
      (aoi.maxCount > 0 → es.length ≤ aoi.maxCount.toNat) ∧
      (aoi.maxSize > 0 → payloadTotal es < aoi.maxSize.toNat) ∧
      (es = wanted ∨ (aoi.maxCount > 0 ∧ es.length = aoi.maxCount.toNat) ∨ (2 ^ 63 ≤ aoi.maxCount.toNat ∧ es = []) ∨
        (aoi.maxSize > 0 ∧ ∃ x rest, wanted = es ++ x :: rest ∧
          aoi.maxSize.toNat ≤ payloadTotal es + x.payloadLength.toNat)) := by
  have htimes : items.reverse.Pairwise (fun a b => b.pos.time ≤ a.pos.time) := by
    rw [List.pairwise_reverse]
    rw [List.pairwise_map] at hsorted
    refine hsorted.imp_of_mem fun {a b} _ _ h => ?_
    dsimp only at h
    rw [UInt64.le_iff_toNat_le]
    refine Nat.le_of_not_lt fun hlt => ?_
    exact bytesLt_strictTotal.asymm h (C23_sorted p b.pos a.pos hlt)
  have hsum : ∀ l : List Item, payloadTotal (l.reverse.map (Item.entry ns)) = payloadTotal (l.map (Item.entry ns)) := by
    intro l
    unfold payloadTotal
    rw [List.map_map, List.map_map, List.map_reverse, List.sum_reverse]
  have hwant : ((items.reverse.filter (matchesArea aoi.area)).map (Item.entry ns)).Perm
      (those (fun e => e.subspaceId = aoi.area.subspace ∧ aoi.area.path <+: e.path ∧
        aoi.area.times.start ≤ e.timestamp ∧ e.timestamp ≤ aoi.area.times.stop) (items.map (Item.entry ns))) := by
    rw [those_eq _ (fun e => decide (e.subspaceId = aoi.area.subspace ∧ aoi.area.path <+: e.path ∧
        aoi.area.times.start ≤ e.timestamp ∧ e.timestamp ≤ aoi.area.times.stop)) _ (fun e _ => by rw [decide_eq_true_eq]),
      List.filter_map]
    exact ((List.reverse_perm items).filter _).map _
  have horder : ((items.reverse.filter (matchesArea aoi.area)).map (Item.entry ns)).Pairwise
      (fun a b => b.timestamp ≤ a.timestamp) := by
    rw [List.pairwise_map]
    exact (htimes.filter _)
  by_cases hcount : 2 ^ 63 ≤ aoi.maxCount.toNat
  · refine ⟨[], _, ?_, hwant, horder, List.nil_prefix, fun _ => Nat.zero_le _,
      fun h => by simpa [UInt64.lt_iff_toNat_lt, payloadTotal] using h, .inr (.inr (.inl ⟨hcount, rfl⟩))⟩
    unfold listValues
    rw [← List.map_reverse, listValuesLoop_big p aoi ns hcount _ fun i hi => (hitems i (List.mem_reverse.1 hi)).1]
  obtain ⟨es, h1, h2, h3, h4, h5⟩ := listValuesLoop_ok p aoi ns (by omega) items.reverse [] 0
    (fun i hi => hitems i (List.mem_reverse.1 hi)) htimes rfl (by rw [hsum]; simpa [payloadTotal] using htotal)
    (fun _ => Nat.zero_le _) (fun h => by simpa [UInt64.lt_iff_toNat_lt, payloadTotal] using h)
  refine ⟨es, _, ?_, hwant, horder, h2, by simpa using h3, by simpa [payloadTotal] using h4, ?_⟩
  · unfold listValues
    rw [← List.map_reverse, h1]
    rfl
  · rcases h5 with h | ⟨h, h'⟩ | ⟨h, x, rest, h', h''⟩
    · exact .inl h
    · exact .inr (.inl ⟨h, by simpa using h'⟩)
    · exact .inr (.inr (.inr ⟨h, x, rest, h', by simpa [payloadTotal] using h''⟩))

/-- The database of one entry, for the violations and examples. -/
def oneEntry (pos : Position) : KV := [(encodeKey tinyParams pos, encodeValues ⟨1, [1, 9], [1, 7]⟩)]

/-- C40 is violated: an entry at the end of the time range is listed though it is outside the
area. -/
theorem C40_violated_end : ∃ (pos : Position) (aoi : AreaOfInterest) (e : Entry),
    listValues tinyParams (oneEntry pos) aoi [42] = .ok [e] ∧ e.position = pos ∧ ¬ InArea aoi.area pos := by
  refine ⟨⟨[7], [[1]], 5⟩, ⟨⟨[7], false, [], ⟨0, 5, false⟩⟩, 0, 0⟩, ⟨[42], [7], [[1]], [1, 9], 1, 5⟩, by decide +kernel, rfl, ?_⟩
  simp [InArea, InRange, TimeLt, UInt64.lt_irrefl]

/-- C40 is violated: with an open time range (end field zero, as `FullArea` makes it) nothing
is listed. -/
theorem C40_violated_open : ∃ (pos : Position) (aoi : AreaOfInterest), aoi.maxCount = 0 ∧ aoi.maxSize = 0 ∧
    InArea aoi.area pos ∧ listValues tinyParams (oneEntry pos) aoi [42] = .ok [] := by
  refine ⟨⟨[7], [[1]], 5⟩, ⟨⟨[7], false, [], ⟨0, 0, true⟩⟩, 0, 0⟩, rfl, rfl, ?_, by decide +kernel⟩
  simp [InArea, InRange, TimeLt, UInt64.lt_iff_toNat_lt]

/-- C40 is violated: an area of any subspace lists nothing of a subspace. -/
theorem C40_violated_any : ∃ (pos : Position) (aoi : AreaOfInterest), aoi.maxCount = 0 ∧ aoi.maxSize = 0 ∧
    InArea aoi.area pos ∧ listValues tinyParams (oneEntry pos) aoi [42] = .ok [] := by
  refine ⟨⟨[7], [[1]], 5⟩, ⟨⟨[], true, [], ⟨0, 9, false⟩⟩, 0, 0⟩, rfl, rfl, ?_, by decide +kernel⟩
  simp [InArea, InRange, TimeLt]

/-- C40 is violated: the running total wraps around, so that the size limit is exceeded. -/
theorem C40_violated_size : ∃ (kv : KV) (aoi : AreaOfInterest) (es : List Entry), aoi.maxSize > 0 ∧
    listValues tinyParams kv aoi [42] = .ok es ∧ aoi.maxSize.toNat < payloadTotal es :=
  ⟨[(encodeKey tinyParams ⟨[7], [[1]], 5⟩, encodeValues ⟨2 ^ 63, [1, 9], [1, 7]⟩),
    (encodeKey tinyParams ⟨[7], [[2]], 6⟩, encodeValues ⟨2 ^ 63, [1, 8], [1, 7]⟩)],
    ⟨⟨[7], false, [], ⟨0, 9, false⟩⟩, 0, 2 ^ 63 + 1⟩,
    [⟨[42], [7], [[2]], [1, 8], 2 ^ 63, 6⟩, ⟨[42], [7], [[1]], [1, 9], 2 ^ 63, 5⟩],
    by decide +kernel, by decide +kernel, by decide +kernel⟩

/-- C40: exactly which entries a listing without limits is wrong about: of the entries under the path of the area and
not before its start, one in the subspace of its field is listed though it is at the end of the times, or is not listed
though the times have no end, because it is later than the number in the end field; and one of another subspace is not
listed though the area is of any subspace. -/
theorem C40_exact (p : PathParams) (items : List Item) (ns : Bytes) (aoi : AreaOfInterest)
    (hitems : ∀ i ∈ items, ShortPath p i.pos.path ∧ i.val.payloadDigest.length < 2 ^ 64 ∧ i.val.authDigest.length < 2 ^ 64)
    (hsorted : (items.map fun i => (encodeKey p i.pos, encodeValues i.val)).Pairwise fun a b => BytesLt a.1 b.1)
    (htotal : payloadTotal (items.map (Item.entry ns)) < 2 ^ 64) (hcount : aoi.maxCount = 0) (hsize : aoi.maxSize = 0) :
    ∃ es, listValues p (items.map fun i => (encodeKey p i.pos, encodeValues i.val)) aoi ns = .ok es ∧
      ∀ i ∈ items, ¬ (i.entry ns ∈ es ↔ InArea aoi.area i.pos) ↔
        aoi.area.path <+: i.pos.path ∧ aoi.area.times.start ≤ i.pos.time ∧
        ((i.pos.subspace = aoi.area.subspace ∧ aoi.area.times.openEnd = false ∧ i.pos.time = aoi.area.times.stop) ∨
          (i.pos.subspace = aoi.area.subspace ∧ aoi.area.times.openEnd = true ∧ aoi.area.times.stop < i.pos.time) ∨
          (i.pos.subspace ≠ aoi.area.subspace ∧ aoi.area.anySubspace = true ∧
            (aoi.area.times.openEnd = true ∨ i.pos.time < aoi.area.times.stop))) := by
  obtain ⟨es, wanted, h1, h2, -, -, -, -, h3⟩ := C40_listing_partial p items ns aoi hitems hsorted htotal
  have hes : es = wanted := by
    rcases h3 with h | ⟨h, -⟩ | ⟨h, -⟩ | ⟨h, -⟩
    · exact h
    · rw [hcount] at h; exact absurd h (by decide)
    · rw [hcount] at h; exact absurd h (by decide)
    · rw [hsize] at h; exact absurd h (by decide)
  refine ⟨es, h1, fun i hi => ?_⟩
  have hmem : i.entry ns ∈ es ↔ i.pos.subspace = aoi.area.subspace ∧ aoi.area.path <+: i.pos.path ∧
      aoi.area.times.start ≤ i.pos.time ∧ i.pos.time ≤ aoi.area.times.stop := by
    rw [hes, h2.mem_iff, those, List.mem_filter]
    exact ⟨fun h => @of_decide_eq_true _ (_) h.2, fun h => ⟨List.mem_map.2 ⟨i, hi, rfl⟩, @decide_eq_true _ (_) h⟩⟩
  rw [hmem]
  unfold InArea InRange TimeLt
  simp only [UInt64.lt_iff_toNat_lt, UInt64.le_iff_toNat_le, ← UInt64.toNat_inj]
  by_cases hp : aoi.area.path <+: i.pos.path <;> by_cases hs : i.pos.subspace = aoi.area.subspace <;>
    cases aoi.area.anySubspace <;> cases aoi.area.times.openEnd <;> simp [hp, hs] <;> omega

example : ∃ (items : List Item) (aoi : AreaOfInterest), items.length = 3 ∧
    (∀ i ∈ items, ValidPath tinyParams i.pos.path ∧ i.val.payloadDigest.length < 2 ^ 64 ∧ i.val.authDigest.length < 2 ^ 64) ∧
    ((items.map fun i => (encodeKey tinyParams i.pos, encodeValues i.val)).Pairwise fun a b => BytesLt a.1 b.1) ∧
    payloadTotal (items.map (Item.entry [42])) < 2 ^ 64 ∧
    listValues tinyParams (items.map fun i => (encodeKey tinyParams i.pos, encodeValues i.val)) aoi [42] =
      .ok [⟨[42], [7], [[1], [2]], [1, 9], 3, 6⟩, ⟨[42], [7], [[1]], [1, 9], 3, 5⟩] := by
  refine ⟨[⟨⟨[7], [[1]], 5⟩, ⟨3, [1, 9], [1, 7]⟩⟩, ⟨⟨[7], [[1], [2]], 6⟩, ⟨3, [1, 9], [1, 7]⟩⟩, ⟨⟨[8], [[1], [2]], 6⟩, ⟨3, [1, 9], [1, 7]⟩⟩],
    ⟨⟨[7], false, [[1]], ⟨0, 9, false⟩⟩, 5, 100⟩, rfl, ?_, ?_, by decide, by decide +kernel⟩
  · simp only [List.forall_mem_cons, List.not_mem_nil, false_implies, implies_true, and_true]
    exact ⟨⟨⟨by decide, by decide, by decide⟩, by decide, by decide⟩, ⟨⟨by decide, by decide, by decide⟩, by decide, by decide⟩,
      ⟨⟨by decide, by decide, by decide⟩, by decide, by decide⟩⟩
  · simp only [← decides_bytes.lt_iff]
    decide +kernel

end Willow.Props
