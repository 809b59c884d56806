import Verif.Lemmas.PropsForged
import Verif.Lemmas.PropsStoreKept
import Verif.Props.Store

/-! Properties C114 (writes in one subspace and the others) and C115 (paths beyond the limits). -/

namespace Willow.Props

open Willow Spec

/-! ## C114 -/

/-- C114, partial: calls for other subspaces at valid paths, in any state of the store whose keys have
valid paths, and whatever they return, change nothing in a subspace: the tree keeps its keys, the
database its values, and lookups give the same. This includes the paths at a limit, where much else
goes wrong. Missing: paths beyond the limits (`C114_violated`). -/
theorem C114_partial (env : StoreEnv) (he : EnvOk env) (s : Bytes) (st st' : StoreState) (ops : List StoreOp)
    (ht : ∀ k ∈ st.kd, ValidPath env.p k.pos.path)
    (hops : ∀ op ∈ ops, (∃ now input token, op = .set now input token ∧ input.subspace ≠ s ∧ ValidPath env.p input.path) ∨
      ∃ e token, op = .ingest e token ∧ e.subspaceId ≠ s ∧ ValidPath env.p e.path)
    (h : runOps env st ops = .ok st') :
    (st'.kd.filter fun k => decide (k.pos.subspace = s)) = (st.kd.filter fun k => decide (k.pos.subspace = s)) ∧
    (∀ pos : Position, pos.subspace = s → ValidPath env.p pos.path →
      st'.kv.get (encodeKey env.p pos) = st.kv.get (encodeKey env.p pos)) ∧
    ∀ path, entryGet env st' s path = entryGet env st s path := by
  have hl := runOps_leaves he (s := s) ops st ht (fun op hop => by
    rcases hops op hop with ⟨now, input, token, rfl, h1, h2⟩ | ⟨e, token, rfl, h1, h2⟩
    · exact ⟨_, rfl, h1, h2⟩
    · exact ⟨_, rfl, h1, h2⟩) h
  exact ⟨hl.1.kd, hl.1.kv, entryGet_untouched hl.1 ht⟩

/-- The same path at a limit in two subspaces: inserting it changes its own key in the tree, and not
the other. -/
example : EnvOk cutEnv ∧ ∃ st st', runOps cutEnv .empty [.set 0 ⟨[7], [[1, 1, 1, 1]], 5, [9]⟩ [7], .restart] = .ok st ∧
    (∀ k ∈ st.kd, ValidPath cutEnv.p k.pos.path) ∧
    runOps cutEnv st [.set 0 ⟨[8], [[1, 1, 1, 1]], 5, [9]⟩ [8]] = .ok st' ∧
    st'.kd.map (·.pos) = [⟨[7], [[1, 1, 1, 1]], 5⟩, ⟨[8], [[1, 1, 1, 2]], 5⟩] := by
  obtain ⟨⟨st, st'⟩, h1, h2, h3⟩ := exists_ok
    (r := do
      let st ← runOps cutEnv .empty [.set 0 ⟨[7], [[1, 1, 1, 1]], 5, [9]⟩ [7], .restart]
      let st' ← runOps cutEnv st [.set 0 ⟨[8], [[1, 1, 1, 1]], 5, [9]⟩ [8]]
      .ok (st, st'))
    (P := fun w => (∀ k ∈ w.1.kd, k.pos.path = [[1, 1, 1, 1]]) ∧
      w.2.kd.map (·.pos) = [⟨[7], [[1, 1, 1, 1]], 5⟩, ⟨[8], [[1, 1, 1, 2]], 5⟩]) (by decide +kernel)
  obtain ⟨w, hw, h1⟩ := Res.bind_eq_ok.1 h1
  obtain ⟨w', hw', h1⟩ := Res.bind_eq_ok.1 h1
  cases h1
  refine ⟨cutEnv_ok, st, st', hw, fun k hk => ?_, hw', h3⟩
  rw [h2 k hk]
  exact ⟨by decide, by decide, by decide⟩

/-- C114 is violated with the limits of the application: in every subspace and at every time an entry can
be received, authorised for its subspace, which replaces the value of an entry of another
subspace in the database. Its path has 257 components, which the store accepts; the number is
written in one byte, so that the rest of the path counts as part of the subspace. -/
theorem C114_violated (lib : KdLib) (s : Bytes) (t n n' : UInt64) (d d' : Bytes) (hd : d ≠ d') : ∃ (other : Bytes) (path : Path)
    (st st' : StoreState), other ≠ s ∧
    ingestEntry (appEnv lib) .empty ⟨[42], other, [[]], d, n, t⟩ other = .ok (some [], st) ∧
    ingestEntry (appEnv lib) st ⟨[42], s, path, d', n', t⟩ s = .ok (some [], st') ∧
    st.kv.get (encodeKey appParams ⟨other, [[]], t⟩) = some (encodeValues ⟨n, d, 1 :: other⟩) ∧
    st'.kv.get (encodeKey appParams ⟨other, [[]], t⟩) = some (encodeValues ⟨n', d', 1 :: s⟩) := by
  refine ⟨forgedSubspace s, emptyThenFull 208, _, _, forgedSubspace_ne s,
    ingest_single lib rfl (by simp [StoreState.empty]) (c := 1) (refs := [(d, putU64 1)]) rfl,
    ingest_long lib rfl ?_ (c := 1) (refs := KV.set [(d, putU64 1)] d' (putU64 1)) ?_, ?_, ?_⟩
  · intro k hk
    simp only [StoreState.empty, List.nil_append, List.mem_singleton] at hk
    rw [hk]
    exact forgedSubspace_ne s
  · show refIncrement [(d, putU64 1)] d' = _
    simp only [refIncrement, KV.get, if_neg hd]
    rfl
  · exact KV.get_set_self _ _ _
  · rw [← forged_key]
    exact KV.get_set_self _ _ _

example : ([1] : Bytes) ≠ [2] := by decide

/-! ## C115 -/

/-- C115, partial: an entry whose path has too many components or bytes, and does not end with the
largest component if it has as many as allowed, is not stored: either the call ends the process
or it returns an error and changes nothing. Missing: that it does not end the process, and the
other paths (`C115_violated_ends`, `C115_violated_stored`). -/
theorem C115_partial (env : StoreEnv) (st : StoreState) (e : Entry) (token : Bytes) (hl : st.locked = false)
    (hb : TooBig env.p e.path) (he : PlainEnd env.p e.path) (hw : e.path.length + 1 < 2 ^ env.p.bits)
    (hw' : pathBytes e.path + 1 < 2 ^ env.p.bits) :
    ingestEntry env st e token = .crash ∨ ingestEntry env st e token = .ok (none, st) :=
  ingestEntry_tooBig (successorPath_tooBig hb he hw hw') hl

example : TooBig appParams [List.replicate 51 1] ∧ PlainEnd appParams [List.replicate 51 1] ∧
    TooBig appParams (List.replicate 51 []) ∧ PlainEnd appParams (List.replicate 51 []) ∧
    ingestEntry (appEnv listLib) .empty ⟨[42], [7], [List.replicate 51 1], [1], 2, 5⟩ [8] = .ok (none, .empty) := by
  refine ⟨.inr (by decide), .inl (by decide), .inl (by decide), .inr (by decide), rfl⟩

/-- C115 is violated: every authorised write, or received entry, at such a path that is newer than the
entries of its subspace ends the process. The check `IsValidPath` is called by tests only; it is
the successor of the path, needed for the lookup, that calls `log.Fatal`
(`/repo/utils/successor.go:54, 61`). -/
theorem C115_violated_ends (env : StoreEnv) (st : StoreState) (op : StoreOp) (e : Entry) (token : Bytes)
    (hop : attempt env op = some (e, token)) (hl : st.locked = false) (hns : env.nsEqual env.namespaceId e.namespaceId = true)
    (ha : env.isAuthorised e token = true) (ht : ∀ k ∈ st.kd, k.pos.subspace = e.subspaceId → k.pos.time < e.timestamp)
    (hb : TooBig env.p e.path) (he : PlainEnd env.p e.path) (hw : e.path.length + 1 < 2 ^ env.p.bits)
    (hw' : pathBytes e.path + 1 < 2 ^ env.p.bits) : runOp env st op = .crash := by
  have hs := successorPath_tooBig hb he hw hw'
  cases op with
  | set now input auth =>
    simp only [attempt, Option.map_eq_some_iff, Prod.mk.injEq] at hop
    obtain ⟨tok, h1, h2, rfl⟩ := hop
    simp only [runOp, storeSet]
    rw [show env.authorise (setEntry env now input) auth = some tok from h1]
    dsimp only
    rw [show setEntry env now input = e from h2]
    rw [ingestEntry_ends (st := { st with files := (payloadSet env st.files input.payload).1 }) hs hl hns ha ht]
  | ingest e' tok' =>
    cases hop
    exact ingestEntry_ends hs hl hns ha ht
  | restart => cases hop

example : attempt (appEnv listLib) (.set 0 ⟨[7], [List.replicate 51 1], 5, [9]⟩ [7]) =
      some (⟨[42], [7], [List.replicate 51 1], [1, 9], 1, 5⟩, [7]) ∧
    runOp (appEnv listLib) .empty (.set 0 ⟨[7], [List.replicate 51 1], 5, [9]⟩ [7]) = .crash := by decide +kernel

/-- C115 is violated with the limits of the application: an entry whose path has 257 components is
stored. When the store is opened again the entry is that of another subspace, at another path. -/
theorem C115_violated_stored (lib : KdLib) (s : Bytes) (hs : s.length + 1 < 2 ^ 64) (t : UInt64) : ∃ (path : Path) (other : Bytes) (st st' : StoreState),
    TooBig appParams path ∧ other ≠ s ∧
    ingestEntry (appEnv lib) .empty ⟨[42], s, path, [1, 8], 1, t⟩ s = .ok (some [], st) ∧
    st.kd.map (·.pos) = [⟨s, path, t⟩] ∧
    restart (appEnv lib) (fun kv => kv) st = .ok st' ∧ st'.kd.map (·.pos) = [⟨other, [[]], t⟩] := by
  refine ⟨emptyThenFull 208, forgedSubspace s, _,
    ⟨[(encodeKey appParams ⟨s, emptyThenFull 208, t⟩, encodeValues ⟨1, [1, 8], 1 :: s⟩)], [⟨⟨forgedSubspace s, [[]], t⟩, 1 :: s⟩],
      [([1, 8], putU64 1)], [(1 :: s, s)], [], false⟩, .inl ?_, forgedSubspace_ne s,
    ingest_long lib rfl (by simp [StoreState.empty]) (c := 1) (refs := [([1, 8], putU64 1)]) rfl, rfl, ?_, rfl⟩
  · rw [emptyThenFull_length]; decide
  · have h1 : initKeys appParams [(encodeKey appParams ⟨s, emptyThenFull 208, t⟩, encodeValues ⟨1, [1, 8], 1 :: s⟩)] =
        .ok [⟨⟨forgedSubspace s, [[]], t⟩, 1 :: s⟩] := by
      unfold initKeys
      have hv : ValidPath appParams [[]] := ⟨by decide, by decide, by decide⟩
      rw [forged_key, C23_roundtrip_partial appParams _ (shortPath_of_limits (by decide) (by decide) hv),
        C24_roundtrip _ (by simp) (by simp; omega)]
      rfl
    unfold restart
    refine (congrArg (fun r => Res.bind r _) h1).trans ?_
    rfl

example : (emptyThenFull 208).length = 257 ∧ (forgedSubspace [7]).length = 10657 :=
  ⟨emptyThenFull_length 208, forgedSubspace_length [7]⟩

/-- C115 is violated: every authorised entry that is the first of its subspace is stored though one of its components is beyond
the limit, if the path has few enough bytes and components and its last component does not have just as many bytes as a
component may have. -/
theorem C115_violated_component (env : StoreEnv) (st : StoreState) (e : Entry) (token : Bytes) (hl : st.locked = false)
    (hns : env.nsEqual env.namespaceId e.namespaceId = true) (ha : env.isAuthorised e token = true)
    (hkd : ∀ k ∈ st.kd, k.pos.subspace ≠ e.subspaceId) (hrefs : ∀ b, st.refs.get e.payloadDigest = some b → 8 ≤ b.length)
    (c : Bytes) (hc : c ∈ e.path) (hlong : env.p.cl < c.length) (hcount : e.path.length < env.p.cc)
    (hbytes : pathBytes e.path < env.p.pl) (hlast : ∀ d, e.path.getLast? = some d → d.length ≠ env.p.cl) :
    ¬ ValidPath env.p e.path ∧ ∃ st', ingestEntry env st e token = .ok (some [], st') ∧ st'.kd = st.kd ++ [⟨e.position, []⟩] := by
  refine ⟨fun h => absurd (h.comp c hc) (by omega), ?_⟩
  have hne : e.path ≠ [] := List.ne_nil_of_mem hc
  have hshort : ∀ q, q <+: e.path → successorPath q env.p = .ok (some (q ++ [[]])) := by
    rintro q ⟨t, hq⟩
    have h1 : q.length ≤ e.path.length := by rw [← hq]; simp
    have h2 : pathBytes q ≤ pathBytes e.path := by rw [← hq, pathBytes_append]; omega
    unfold successorPath
    by_cases h0 : q.length = 0
    · rw [if_pos h0, List.eq_nil_of_length_eq_zero h0]; rfl
    · rw [if_neg h0, conv_of_le (by omega) env.p.hcc, if_pos (by omega), pathAppend_succeeds (by omega) (by simp; omega)]
      rfl
  have hs : ∀ q, q <+: e.path → q ≠ [] → ∃ x, successorPath q env.p = .ok x := fun q hq _ => ⟨_, hshort q hq⟩
  obtain ⟨pre, d, hpath⟩ : ∃ pre d, e.path = pre ++ [d] := ⟨_, _, (List.dropLast_concat_getLast hne).symm⟩
  have hd : d.length ≠ env.p.cl := hlast d (by rw [hpath]; simp)
  have hpl := env.p.hpl
  have htry : tryAppendZeroByte d env.p = some (d ++ [0]) := by
    unfold tryAppendZeroByte
    have : d.length ≤ env.p.pl := by
      have h1 := pathBytes_append pre [d]
      rw [← hpath] at h1
      have h2 : pathBytes [d] = d.length := by simp [pathBytes]
      omega
    rw [conv_of_le this hpl, if_neg hd]
  have hpre : successorPrefix e.path env.p = .ok (some (pre ++ [d ++ [0]])) := by
    unfold successorPrefix
    rw [hpath, List.length_append, List.length_singleton]
    unfold successorPrefixLoop
    rw [List.getElem?_append_right (Nat.le_refl _), Nat.sub_self, List.getElem?_cons_zero]
    simp only [htry]
    rw [List.take_left, pathAppend_succeeds]
    · rfl
    · rw [hpath] at hcount; simp at hcount; omega
    · rw [hpath, pathBytes_append] at hbytes
      simp [pathBytes] at hbytes ⊢
      omega
  have hm : successorPrefixMutated e.path env.p = e.path := by
    unfold successorPrefixMutated
    rw [hpath, List.length_append, List.length_singleton]
    unfold successorPrefixMutatedLoop
    rw [List.getElem?_append_right (Nat.le_refl _), Nat.sub_self, List.getElem?_cons_zero]
    simp only [htry]
  have hr : belowRange env.p e.subspaceId e.path = .ok
      ⟨⟨e.subspaceId, successorSubspaceId e.subspaceId, false⟩, ⟨e.path ++ [[]], pre ++ [d ++ [0]], false⟩, ⟨0, 2, true⟩⟩ := by
    unfold belowRange
    rw [hshort _ (List.prefix_refl _), hpre]
    simp only [Res.ok_bind, Option.getD_some]
    rw [if_pos (by simp), hm, List.drop_left]
  obtain ⟨n, refs, hinc⟩ : ∃ n refs, refIncrement st.refs e.payloadDigest = .ok (n, refs) := by
    unfold refIncrement
    cases hg : st.refs.get e.payloadDigest with
    | none => exact ⟨_, _, rfl⟩
    | some b =>
      have := hrefs b hg
      have h8 : bigEndianUint64 b = .ok (UInt64.ofNat (getBE (b.take 8))) := if_neg (by omega)
      dsimp only
      rw [h8]
      exact ⟨_, _, rfl⟩
  refine ⟨_, ingest_fresh hl hns ha hkd hne hs hr ?_ hm hinc, rfl⟩
  rw [Bool.eq_false_iff]
  intro h
  have := ((isIncluded3d_iff decides_subspace _ _).1 h).2.1.1
  exact this (((pathPoint_iff e.path e.path).2 rfl).2.resolve_left (by simp))

example : ∃ st : StoreState, ¬ ValidPath tinyParams [[1, 2, 3, 4]] ∧
    storeSet (testEnv listLib) .empty 0 ⟨[7], [[1, 2, 3, 4]], 5, [8]⟩ [7] = .ok (some [], st) ∧
    st.kd.map (·.pos) = [⟨[7], [[1, 2, 3, 4]], 5⟩] := by
  refine ⟨_, fun h => ?_, rfl, by decide +kernel⟩
  have := h.comp [1, 2, 3, 4] (by simp)
  simp [tinyParams] at this

end Willow.Props
