import Verif.Props.Store

/-! Properties of queries of a store after calls (C108). -/

namespace Willow.Props

open Willow Spec

/-- C108, partial: after any fine calls, what `ListWithAOI` gives for an area of one subspace is an
initial part of the entries that the calls left in it, newest first (where the time range is taken
as closed), and all of them if there are no limits. Missing: areas of any subspace, open time ranges,
the excluded end of the time range (C40), and calls that are not fine. -/
theorem C108_area_partial (env : StoreEnv) (he : EnvOk env) (ops : List StoreOp) (hf : ∀ op ∈ ops, FineOp env op)
    (aoi : AreaOfInterest) (htotal : payloadTotal ((specRun env [] ops).map (Item.entry env.namespaceId)) < 2 ^ 64) :
    ∃ st es wanted, runOps env .empty ops = .ok st ∧ listWithAOI env st aoi = .ok es ∧
      wanted.Perm (those (fun e => e.subspaceId = aoi.area.subspace ∧ aoi.area.path <+: e.path ∧
        aoi.area.times.start ≤ e.timestamp ∧ e.timestamp ≤ aoi.area.times.stop)
        ((specRun env [] ops).map (Item.entry env.namespaceId))) ∧
      wanted.Pairwise (fun a b => b.timestamp ≤ a.timestamp) ∧ es <+: wanted ∧
      (aoi.maxCount > 0 → es.length ≤ aoi.maxCount.toNat) ∧
      (aoi.maxSize > 0 → payloadTotal es < aoi.maxSize.toNat) ∧
      (aoi.maxCount = 0 → aoi.maxSize = 0 → es = wanted) := by
  obtain ⟨st, h1, h2, _⟩ := run_ok he ops hf
  obtain ⟨L, hL, hkv⟩ := exists_map_of_perm h2.core.kv_perm
  have hent := hL.map (Item.entry env.namespaceId)
  have hst : payloadTotal (L.map (Item.entry env.namespaceId)) < 2 ^ 64 := by
    have : payloadTotal (L.map (Item.entry env.namespaceId)) =
        payloadTotal ((specRun env [] ops).map (Item.entry env.namespaceId)) := (hent.map _).sum_nat
    omega
  have hsorted : (L.map fun i => (encodeKey env.p i.pos, encodeValues i.val)).Pairwise fun a b => BytesLt a.1 b.1 := by
    have := h2.core.sorted
    rw [hkv] at this
    exact this
  obtain ⟨es, wanted, e1, e2, e3, e4, e5, e6, e7⟩ := C40_listing_partial env.p L env.namespaceId aoi
    (fun i hi => by
      have := h2.core.fine i (hL.mem_iff.1 hi)
      exact ⟨shortPath_of_limits he.cc he.cl this.path.valid, this.digest, this.auth⟩) hsorted hst
  refine ⟨st, es, wanted, h1, ?_, e2.trans ?_, e3, e4, e5, e6, fun hc hs => ?_⟩
  · unfold listWithAOI
    rw [hkv]
    exact e1
  · exact hent.filter _
  · rcases e7 with h | ⟨h, _⟩ | ⟨h, _⟩ | ⟨h, _⟩
    · exact h
    · rw [hc] at h; exact absurd h (by decide)
    · rw [hc] at h; exact absurd h (by decide)
    · rw [hs] at h; exact absurd h (by decide)

example : EnvOk cutEnv ∧ (∀ op ∈ exampleOps, FineOp cutEnv op) ∧
    payloadTotal ((specRun cutEnv [] exampleOps).map (Item.entry cutEnv.namespaceId)) < 2 ^ 64 :=
  ⟨cutEnv_ok, example_fine, by decide +kernel⟩

/-- C108, partial: after any fine calls, for an area of one subspace with a closed time range, no
limits, and no entry exactly at the end of the time range, `ListWithAOI` gives exactly the entries
that the calls left in the area. Missing: as before. -/
theorem C108_exact_partial (env : StoreEnv) (he : EnvOk env) (ops : List StoreOp) (hf : ∀ op ∈ ops, FineOp env op) (area : Area)
    (hany : area.anySubspace = false) (hclosed : area.times.openEnd = false)
    (hend : ∀ a ∈ specRun env [] ops, a.pos.time ≠ area.times.stop)
    (htotal : payloadTotal ((specRun env [] ops).map (Item.entry env.namespaceId)) < 2 ^ 64) :
    ∃ st es, runOps env .empty ops = .ok st ∧ listWithAOI env st ⟨area, 0, 0⟩ = .ok es ∧
      es.Perm ((those (fun a : Item => InArea area a.pos) (specRun env [] ops)).map (Item.entry env.namespaceId)) := by
  obtain ⟨st, es, wanted, h1, h2, h3, -, -, -, -, h4⟩ := C108_area_partial env he ops hf ⟨area, 0, 0⟩ htotal
  refine ⟨st, es, h1, h2, ?_⟩
  rw [h4 rfl rfl]
  refine h3.trans (List.Perm.of_eq ?_)
  have hiff : ∀ a ∈ specRun env [] ops, InArea area a.pos ↔ a.pos.subspace = area.subspace ∧ area.path <+: a.pos.path ∧
      area.times.start ≤ a.pos.time ∧ a.pos.time ≤ area.times.stop := by
    intro a ha
    have := hend a ha
    simp only [InArea, hany, InRange, hclosed, TimeLt]
    grind
  unfold those
  rw [List.filter_map]
  congr 1
  refine List.filter_congr fun a ha => ?_
  by_cases h : InArea area a.pos
  · have h' := (hiff a ha).1 h
    simp only [Function.comp, Item.entry, h, h', and_self, decide_true]
  · have h' := mt (hiff a ha).2 h
    simp only [Function.comp, Item.entry, h, h', decide_false]

example : (∀ a ∈ specRun cutEnv [] exampleOps, a.pos.time ≠ 9) ∧ (specRun cutEnv [] exampleOps).length = 2 := by
  decide +kernel

/-- C108, partial: after any fine calls a query for a range gives one entry for each entry that the
calls left in the range, with the digest of its token, after as many blank ones. Missing: the blank
entries (C39), and calls that are not fine. -/
theorem C108_range_partial (env : StoreEnv) (he : EnvOk env) (ops : List StoreOp) (hf : ∀ op ∈ ops, FineOp env op) (r : Range3d) :
    ∃ st rs, runOps env .empty ops = .ok st ∧
      entryQuery env st r = .ok (List.replicate (howMany (fun a : Item => InRange3d r a.pos) (specRun env [] ops)) nothingFilledIn ++ rs) ∧
      rs.Perm ((those (fun a : Item => InRange3d r a.pos) (specRun env [] ops)).map fun a =>
        (a.entry env.namespaceId, a.val.authDigest)) := by
  obtain ⟨st, h1, h2, _⟩ := run_ok he ops hf
  let value : Position → Values := fun pos => (((specRun env [] ops).find? fun a => a.pos = pos).map (·.val)).getD ⟨0, [], []⟩
  have hvalue : ∀ a ∈ specRun env [] ops, value a.pos = a.val := by
    intro a ha
    cases hfind : (specRun env [] ops).find? fun b => b.pos = a.pos with
    | none => exact absurd (List.find?_eq_none.1 hfind a ha) (by simp)
    | some b =>
      have hb := List.mem_of_find?_eq_some hfind
      have hp : b.pos = a.pos := by simpa using List.find?_some hfind
      have : b = a := apart_unique h2.core.apart hb ha (by rw [hp]) (by rw [hp])
      simp [value, hfind, this]
  obtain ⟨rs, h3, h4⟩ := C39_query_partial env st r (fun k => value k.pos) fun k hk => by
    obtain ⟨a, ha, hp⟩ := h2.core.mem_kd hk
    rw [← hp, hvalue a ha]
    exact ⟨(h2.core.fine a ha).digest, (h2.core.fine a ha).auth, h2.core.get ha⟩
  have hpos : ((those (fun k : KdKey => InRange3d r k.pos) st.kd).map (·.pos)).Perm
      ((those (fun a : Item => InRange3d r a.pos) (specRun env [] ops)).map (·.pos)) := by
    have := h2.core.kd_perm.filter fun pos => @decide (InRange3d r pos) (Classical.propDecidable _)
    rw [List.filter_map, List.filter_map] at this
    exact this
  refine ⟨st, rs, h1, ?_, h4.trans ?_⟩
  · rw [h3]
    have := hpos.length_eq
    rw [List.length_map, List.length_map] at this
    unfold howMany
    rw [this]
  · have := hpos.map fun pos => ((⟨pos, value pos⟩ : Item).entry env.namespaceId, (value pos).authDigest)
    rw [List.map_map, List.map_map] at this
    refine this.trans (List.Perm.of_eq (List.map_congr_left fun a ha => ?_))
    have ha : a ∈ specRun env [] ops := (List.mem_filter.1 ha).1
    simp only [Function.comp, hvalue a ha]

example : ∃ st, runOps cutEnv .empty exampleOps = .ok st ∧
    listWithAOI cutEnv st ⟨⟨[7], false, [], ⟨0, 9, false⟩⟩, 1, 0⟩ = .ok [⟨cutEnv.namespaceId, [7], [[1]], [1, 8], 1, 7⟩] :=
  ⟨_, rfl, by decide +kernel⟩

/-- C108, partial: after any fine calls, `List` gives the positions of exactly the entries that the
calls left. Missing: calls that are not fine. -/
theorem C108_list_partial (env : StoreEnv) (he : EnvOk env) (ops : List StoreOp) (hf : ∀ op ∈ ops, FineOp env op) :
    ∃ st, runOps env .empty ops = .ok st ∧ ((storeList env st).map (·.pos)).Perm ((specRun env [] ops).map (·.pos)) := by
  obtain ⟨st, h1, h2, _⟩ := run_ok he ops hf
  exact ⟨st, h1, ((env.lib.valuesPerm st.kd).map _).trans h2.core.kd_perm⟩

example : (specRun cutEnv [] exampleOps).map (·.pos) = [⟨[7], [[1]], 7⟩, ⟨[7], [[3]], 6⟩] := by decide +kernel

/-- C108 is violated: after any fine calls, `ListWithAOI` of a whole subspace with an open time range (whose end
field is 0, as `FullArea` makes it) leaves out every entry with a time other than 0. -/
theorem C108_violated_open (env : StoreEnv) (he : EnvOk env) (ops : List StoreOp) (hf : ∀ op ∈ ops, FineOp env op)
    (htotal : payloadTotal ((specRun env [] ops).map (Item.entry env.namespaceId)) < 2 ^ 64)
    (a : Item) (ht : a.pos.time ≠ 0) :
    ∃ st es, runOps env .empty ops = .ok st ∧
      listWithAOI env st ⟨⟨a.pos.subspace, false, [], ⟨0, 0, true⟩⟩, 0, 0⟩ = .ok es ∧
      InArea ⟨a.pos.subspace, false, [], ⟨0, 0, true⟩⟩ a.pos ∧ a.entry env.namespaceId ∉ es := by
  obtain ⟨st, es, wanted, h1, h2, h3, -, h4, -, -, -⟩ := C108_area_partial env he ops hf
    ⟨⟨a.pos.subspace, false, [], ⟨0, 0, true⟩⟩, 0, 0⟩ htotal
  refine ⟨st, es, h1, h2, ?_, fun hmem => ?_⟩
  · simp [InArea, InRange, TimeLt, UInt64.lt_iff_toNat_lt]
  · have := mem_those.1 (h3.mem_iff.1 (h4.subset hmem))
    exact ht (by simpa [Item.entry] using this.2.2.2.2)

/-- C108 is violated: after any fine calls, `ListWithAOI` of an area of any subspace (whose subspace field is empty,
as `FullArea` makes it) leaves out every entry of a subspace with a name. -/
theorem C108_violated_any (env : StoreEnv) (he : EnvOk env) (ops : List StoreOp) (hf : ∀ op ∈ ops, FineOp env op)
    (htotal : payloadTotal ((specRun env [] ops).map (Item.entry env.namespaceId)) < 2 ^ 64)
    (area : Area) (hany : area.anySubspace = true) (hsub : area.subspace = []) (a : Item) (hs : a.pos.subspace ≠ []) :
    ∃ st es, runOps env .empty ops = .ok st ∧ listWithAOI env st ⟨area, 0, 0⟩ = .ok es ∧
      a.entry env.namespaceId ∉ es := by
  obtain ⟨st, es, wanted, h1, h2, h3, -, h4, -, -, -⟩ := C108_area_partial env he ops hf ⟨area, 0, 0⟩ htotal
  refine ⟨st, es, h1, h2, fun hmem => ?_⟩
  have := mem_those.1 (h3.mem_iff.1 (h4.subset hmem))
  exact hs (by rw [← hsub]; exact this.2.1)

/-- C108 is violated: after any fine calls, `ListWithAOI` of an area whose time range ends at the time of an entry
gives that entry, though it is outside the area. -/
theorem C108_violated_end (env : StoreEnv) (he : EnvOk env) (ops : List StoreOp) (hf : ∀ op ∈ ops, FineOp env op)
    (htotal : payloadTotal ((specRun env [] ops).map (Item.entry env.namespaceId)) < 2 ^ 64)
    (a : Item) (ha : a ∈ specRun env [] ops) :
    ∃ st es, runOps env .empty ops = .ok st ∧
      listWithAOI env st ⟨⟨a.pos.subspace, false, [], ⟨0, a.pos.time, false⟩⟩, 0, 0⟩ = .ok es ∧
      ¬ InArea ⟨a.pos.subspace, false, [], ⟨0, a.pos.time, false⟩⟩ a.pos ∧ a.entry env.namespaceId ∈ es := by
  obtain ⟨st, es, wanted, h1, h2, h3, -, -, -, -, h4⟩ := C108_area_partial env he ops hf
    ⟨⟨a.pos.subspace, false, [], ⟨0, a.pos.time, false⟩⟩, 0, 0⟩ htotal
  refine ⟨st, es, h1, h2, ?_, ?_⟩
  · simp [InArea, InRange, TimeLt, UInt64.lt_irrefl]
  · rw [h4 rfl rfl]
    refine h3.mem_iff.2 (mem_those.2 ⟨List.mem_map.2 ⟨a, ha, rfl⟩, rfl, List.nil_prefix, ?_, ?_⟩)
    · simp [UInt64.le_iff_toNat_le, Item.entry]
    · exact UInt64.le_refl _

/-- C108 is violated: after any fine calls, a query of a range that has an entry gives a blank entry as well. -/
theorem C108_violated_range (env : StoreEnv) (he : EnvOk env) (ops : List StoreOp) (hf : ∀ op ∈ ops, FineOp env op)
    (r : Range3d) (a : Item) (ha : a ∈ specRun env [] ops) (hr : InRange3d r a.pos) :
    ∃ st rs, runOps env .empty ops = .ok st ∧ entryQuery env st r = .ok rs ∧ nothingFilledIn ∈ rs := by
  obtain ⟨st, rs, h1, h2, -⟩ := C108_range_partial env he ops hf r
  refine ⟨st, _, h1, h2, List.mem_append_left _ ?_⟩
  rw [List.mem_replicate]
  refine ⟨?_, rfl⟩
  unfold howMany
  exact fun h => by
    have := (mem_those (P := fun a : Item => InRange3d r a.pos)).2 ⟨ha, hr⟩
    rw [List.length_eq_zero_iff.1 h] at this
    exact absurd this (List.not_mem_nil)

example : ⟨⟨[7], [[1]], 7⟩, ⟨1, [1, 8], [1, 7]⟩⟩ ∈ specRun cutEnv [] exampleOps := by decide +kernel

end Willow.Props
