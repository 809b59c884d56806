import Verif.Lemmas.PropsFullEnd
import Verif.Props.Store

/-! Properties of the store for all paths whose last component has the greatest length (C44, C45, C48, C50, C54, C55), and the paths that
the prefix successor changes (C15). -/

namespace Willow.Props

open Willow Spec

/-- C15, the code disagrees for exactly these paths: those whose last component other than the largest possible one has the
greatest length. For all others the bytes of the caller's path are unchanged. -/
theorem C15_violated_exactly (p : PathParams) (path : Path) (hc : ∀ c ∈ path, c.length ≤ p.cl) :
    successorPrefixMutated path p ≠ path ↔ ∃ pre c post, path = pre ++ c :: post ∧ c.length = p.cl ∧
      c ≠ List.replicate p.cl 255 ∧ ∀ d ∈ post, d = List.replicate p.cl 255 := by
  constructor
  · intro hn
    rcases path_cases p path with h | ⟨pre, c, post, rfl, hne, hpost⟩
    · exact absurd (successorPrefixMutated_largest h) hn
    · refine ⟨pre, c, post, rfl, Classical.byContradiction fun hlen => ?_, hne, hpost⟩
      have := hc c (by simp)
      exact hn (successorPrefixMutated_room (by omega) hpost)
  · rintro ⟨pre, c, post, rfl, hlen, hne, hpost⟩ heq
    obtain ⟨x, b, k, hb, rfl⟩ := exists_last_below c (Classical.byContradiction fun h => hne (List.eq_replicate_iff.2
      ⟨hlen, fun b hb => Classical.byContradiction fun hb' => h ⟨b, hb, hb'⟩⟩))
    rw [successorPrefixMutated_full hb hlen hpost] at heq
    have h1 := List.append_cancel_left heq
    rw [List.cons.injEq] at h1
    have h2 := List.append_cancel_left h1.1
    rw [List.cons.injEq] at h2
    have := u8_succ_lt hb
    rw [h2.1] at this
    exact Nat.lt_irrefl _ (UInt8.lt_iff_toNat_lt.1 this)

example : (∀ c ∈ [[1], [1, 2, 3], [255, 255, 255]], c.length ≤ tinyParams.cl) ∧
    successorPrefixMutated [[1], [1, 2, 3], [255, 255, 255]] tinyParams = [[1], [1, 2, 4], [255, 255, 255]] := by decide

section
variable (env : StoreEnv) (he : EnvOk env) (ops : List StoreOp) (hf : ∀ op ∈ ops, FineOp env op)
  (st : StoreState) (hrun : runOps env .empty ops = .ok st) (e : Entry) (tok : Bytes)
  (hns : env.nsEqual env.namespaceId e.namespaceId = true) (ha : env.isAuthorised e tok = true) (hfull : FullEnd env.p e.path)
  (hno : ∀ k ∈ st.kd, k.pos.subspace = e.subspaceId → ¬ k.pos.path <+: e.path)
include he hf hrun hns ha hfull hno

/-- C50, the code disagrees for every path whose last component has the greatest length (and has a byte below 255): in
every store made by fine calls without an entry of the subspace at a prefix of the path, an authorised entry with this
path is accepted, and then its key is in the database while the tree has no such position. -/
theorem C50_violated_full : ∃ st', ingestEntry env st e tok = .ok (some [], st') ∧
    encodeKey env.p e.position ∈ st'.kv.map (·.1) ∧ encodeKey env.p e.position ∉ st'.kd.map (fun k => encodeKey env.p k.pos) := by
  obtain ⟨st0, h1, h2, h3⟩ := run_ok he ops hf
  obtain rfl : st0 = st := by rw [h1] at hrun; exact Res.ok.inj hrun
  obtain ⟨v, st', h4, h5, h6, h7, h8, h9⟩ := full_run h2.refs h3 hns ha hfull hno
  refine ⟨st', h4, ?_, ?_⟩
  · rw [h5]
    exact List.mem_map.2 ⟨_, KV.get_mem (KV.get_set_self _ _ v), rfl⟩
  · rw [List.mem_map, h6]
    rintro ⟨k, hk, hkey⟩
    have hv : ValidPath env.p k.pos.path := by
      rcases List.mem_append.1 hk with hk | hk
      · obtain ⟨a, ha, hp⟩ := h2.core.mem_kd hk
        rw [← hp]
        exact (h2.core.fine a ha).path.valid
      · rw [List.mem_singleton.1 hk]
        exact (fullEnd_mutated hfull).2.1
    have hpos := C23_injective_partial env.p k.pos e.position (shortPath_of_limits he.cc he.cl hv)
      (shortPath_of_limits he.cc he.cl hfull.valid) hkey
    exact full_absent hfull hno k hk (by rw [hpos]; rfl) (by rw [hpos]; exact List.prefix_refl _)

/-- C44, the code disagrees for every path whose last component has the greatest length (and has a byte below 255): in
every store made by fine calls without an entry of the subspace at a prefix of the path, writing twice there with
different timestamps leaves two entries at the path in the database. -/
theorem C44_violated_full (e' : Entry) (tok' : Bytes) (hns' : env.nsEqual env.namespaceId e'.namespaceId = true)
    (ha' : env.isAuthorised e' tok' = true) (hs : e'.subspaceId = e.subspaceId) (hp : e'.path = e.path) :
    ∃ st1 st2, ingestEntry env st e tok = .ok (some [], st1) ∧ ingestEntry env st1 e' tok' = .ok (some [], st2) ∧
      st2.kv.get (encodeKey env.p e.position) ≠ none ∧ st2.kv.get (encodeKey env.p e'.position) ≠ none := by
  obtain ⟨st0, h1, h2, h3⟩ := run_ok he ops hf
  obtain rfl : st0 = st := by rw [h1] at hrun; exact Res.ok.inj hrun
  obtain ⟨v, st', h4, h5, h6, h7, ⟨B, h8⟩, h9⟩ := full_run h2.refs h3 hns ha hfull hno
  obtain ⟨v', st'', h4', h5', h6', h7', -, h9'⟩ := full_run h8 h7 hns' ha' (hp ▸ hfull) (by
    rw [h6, hs, hp]; exact full_absent hfull hno)
  refine ⟨st', st'', h4, h4', ?_, ?_⟩
  · rw [h5', h5, KV.get_set]
    split
    · simp
    · rw [KV.get_set_self]; simp
  · rw [h5', KV.get_set_self]; simp

/-- C48, the code disagrees for every path whose last component has the greatest length (and has a byte below 255): in
every store made by fine calls without an entry of the subspace at a prefix of the path, after an entry is written
there, an entry with an older or equal timestamp is accepted, and so is any other. -/
theorem C48_violated_full (e' : Entry) (tok' : Bytes) (hns' : env.nsEqual env.namespaceId e'.namespaceId = true)
    (ha' : env.isAuthorised e' tok' = true) (hs : e'.subspaceId = e.subspaceId) (hp : e'.path = e.path)
    (_ : e'.timestamp ≤ e.timestamp) :
    ∃ st1 st2, ingestEntry env st e tok = .ok (some [], st1) ∧ ingestEntry env st1 e' tok' = .ok (some [], st2) := by
  obtain ⟨st1, st2, h1, h2, -⟩ := C44_violated_full env he ops hf st hrun e tok hns ha hfull hno e' tok' hns' ha' hs hp
  exact ⟨st1, st2, h1, h2⟩

/-- C45, the code disagrees for every path whose last component has the greatest length (and has a byte below 255): in
every store made by fine calls without an entry of the subspace at a prefix of the path, an entry written there prunes
nothing: whatever was in the database, and so an older entry below the path, is still there. -/
theorem C45_violated_full (a : Position) (hold : st.kv.get (encodeKey env.p a) ≠ none) (_ : a.subspace = e.subspaceId)
    (_ : e.path <+: a.path) (_ : e.path ≠ a.path) (_ : a.time < e.timestamp) :
    ∃ st', ingestEntry env st e tok = .ok (some [], st') ∧ st'.kv.get (encodeKey env.p e.position) ≠ none ∧
      st'.kv.get (encodeKey env.p a) ≠ none := by
  obtain ⟨st0, h1, h2, h3⟩ := run_ok he ops hf
  obtain rfl : st0 = st := by rw [h1] at hrun; exact Res.ok.inj hrun
  obtain ⟨v, st', h4, h5, h6, h7, ⟨B, h8⟩, h9⟩ := full_run h2.refs h3 hns ha hfull hno
  refine ⟨st', h4, ?_, ?_⟩
  · rw [h5, KV.get_set_self]; simp
  · rw [h5, KV.get_set]
    split
    · simp
    · exact hold

/-- C54, the code disagrees for every path whose last component has the greatest length (and has a byte below 255): in
every store made by fine calls without an entry of the subspace at a prefix of the path, after an entry is written
there, every write of the subspace to a certain greater path (if nothing is at a prefix of it either) returns an error
with the lock held, and every later write waits forever. -/
theorem C54_violated_full : ∃ m st1, ValidPath env.p m ∧ PathLt e.path m ∧ ingestEntry env st e tok = .ok (some [], st1) ∧
    ((∀ k ∈ st.kd, k.pos.subspace = e.subspaceId → ¬ k.pos.path <+: m) →
      ∀ (e' : Entry) (tok' : Bytes), env.nsEqual env.namespaceId e'.namespaceId = true → env.isAuthorised e' tok' = true →
        e'.subspaceId = e.subspaceId → e'.path = m →
        ∃ st2, ingestEntry env st1 e' tok' = .ok (none, st2) ∧ st2.locked = true ∧
          ∀ e'' tok'', ingestEntry env st2 e'' tok'' = .block) := by
  obtain ⟨st0, h1, h2, h3⟩ := run_ok he ops hf
  obtain rfl : st0 = st := by rw [h1] at hrun; exact Res.ok.inj hrun
  obtain ⟨v, st', h4, h5, h6, h7, ⟨B, h8⟩, h9⟩ := full_run h2.refs h3 hns ha hfull hno
  obtain ⟨hlt, hv, hlen⟩ := fullEnd_mutated hfull
  refine ⟨_, st', hv, hlt, h4, fun hkd e' tok' hns' ha' hs hp => ⟨{ st' with locked := true }, ?_, rfl, fun e'' tok'' => rfl⟩⟩
  have hroom := hfull.room
  have hne : e'.path ≠ [] := fun h => by
    rw [hp] at h
    rw [h] at hlt
    exact lexLt_nil _ hlt
  have hpre : driverPrefixesOf env.lib env.p st'.kd e'.subspaceId e'.path = .ok [] := by
    obtain ⟨ks, h1, h2⟩ := driverPrefixesOf_ok env.lib env.p st'.kd e'.subspaceId e'.path (hp ▸ hv) hne
    rw [List.filter_eq_nil_iff.2 (fun k hk => by
      rw [decide_eq_true_eq]
      rw [h6] at hk
      rcases List.mem_append.1 hk with hk | hk
      · exact fun h => hkd k hk (hs ▸ h.1) (hp ▸ h.2.1)
      · rw [List.mem_singleton.1 hk]
        exact fun h => h.2.2.2 hp.symm)] at h2
    rw [h1, List.perm_nil.1 h2]
  have hget : entryGet env { st' with locked := true } e'.subspaceId e'.path = .ok .error := by
    have hfil : st0.kd.filter (fun k => decide (k.pos.subspace = e'.subspaceId ∧ k.pos.path = e'.path)) = [] := by
      rw [List.filter_eq_nil_iff]
      intro k hk
      rw [decide_eq_true_eq]
      exact fun h => hkd k hk (hs ▸ h.1) (by rw [h.2, hp]; exact List.prefix_refl _)
    obtain ⟨o, ho, hiff⟩ := storageGet_ok env.lib env.p st'.kd e'.subspaceId e'.path (hp ▸ hv) (.inl (by rw [hp, hlen]; exact hroom)) (by
      rw [h6, List.filter_append, hfil]
      exact List.length_filter_le _ _)
    have := (hiff ⟨e.subspaceId, successorPrefixMutated e.path env.p, e.timestamp⟩).2 ⟨hs.symm, hp.symm, _, by rw [h6]; exact List.mem_append_right _ (List.mem_singleton.2 rfl), rfl⟩
    subst this
    unfold entryGet
    rw [ho]
    simp only [Res.ok_bind]
    have hnone : st'.kv.get (encodeKey env.p ⟨e.subspaceId, successorPrefixMutated e.path env.p, e.timestamp⟩) = none := by
      rw [h5, KV.get_set, if_neg]
      · refine Classical.byContradiction fun hg => ?_
        obtain ⟨x, hx⟩ := Option.ne_none_iff_exists'.1 hg
        obtain ⟨i, hi, hip, _⟩ := h2.core.of_get he hv hx
        obtain ⟨k, hk, hkp⟩ := h2.core.in_kd hi
        exact hkd k hk (by rw [hkp, hip]) (by rw [hkp, hip]; exact List.prefix_refl _)
      · intro hkey
        have := C23_injective_partial env.p _ e.position (shortPath_of_limits he.cc he.cl (by exact hv))
          (shortPath_of_limits he.cc he.cl hfull.valid) hkey
        have hpath : successorPrefixMutated e.path env.p = e.path := congrArg Position.path this
        rw [hpath] at hlt
        exact pathLt_strictTotal.irrefl _ hlt
    rw [hnone]
  unfold ingestEntry
  rw [h7, hns', ha', hpre]
  simp only [Bool.false_eq_true, if_false, Bool.not_true, List.any_nil]
  rw [hget]

end

example : EnvOk cutEnv ∧ (∀ op ∈ exampleOps, FineOp cutEnv op) ∧ FullEnd cutEnv.p [[9, 9, 9, 9]] ∧
    cutEnv.isAuthorised ⟨[42], [7], [[9, 9, 9, 9]], [1, 9], 1, 5⟩ [7] = true ∧
    ∃ st, runOps cutEnv .empty exampleOps = .ok st ∧
      ∀ k ∈ st.kd, k.pos.subspace = [7] → ¬ k.pos.path <+: [[9, 9, 9, 9]] :=
  ⟨cutEnv_ok, example_fine, ⟨⟨by decide, by decide, by decide⟩, by decide, [], _, [], rfl, rfl, by decide, by simp⟩, rfl, _, rfl, by
    decide +kernel⟩

example : FineOp cutEnv (put [[9, 9, 9, 9], [1]] 3 [9]) ∧ ∃ st, runOps cutEnv .empty [put [[9, 9, 9, 9], [1]] 3 [9]] = .ok st ∧
    st.kv.get (encodeKey cutEnv.p ⟨[7], [[9, 9, 9, 9], [1]], 3⟩) ≠ none ∧
    ∀ k ∈ st.kd, k.pos.subspace = [7] → ¬ k.pos.path <+: [[9, 9, 9, 9]] :=
  ⟨cut_fine _ _ _ ⟨⟨by decide, by decide, by decide⟩, [[9, 9, 9, 9]], [1], [], rfl, by decide, by decide, by simp⟩, _, rfl, by decide +kernel, by decide +kernel⟩

/-- C55, the code disagrees for every path whose last component has the greatest length (and has a byte below 255): in
every store made by fine calls without an entry of the subspace at a prefix of the path, a call of `Set` for this path
succeeds, and the entry is not found afterwards. -/
theorem C55_violated_full (env : StoreEnv) (he : EnvOk env) (ops : List StoreOp) (hf : ∀ op ∈ ops, FineOp env op)
    (st : StoreState) (hrun : runOps env .empty ops = .ok st) (now : UInt64) (input : EntryInput) (authorisation tok : Bytes)
    (hns : env.nsEqual env.namespaceId env.namespaceId = true)
    (hauth : env.authorise (setEntry env now input) authorisation = some tok)
    (ha : env.isAuthorised (setEntry env now input) tok = true) (hfull : FullEnd env.p input.path)
    (hno : ∀ k ∈ st.kd, k.pos.subspace = input.subspace → ¬ k.pos.path <+: input.path) :
    ∃ st', storeSet env st now input authorisation = .ok (some [], st') ∧
      entryGet env st' input.subspace input.path = .ok .missing := by
  obtain ⟨st0, h1, h2, h3⟩ := run_ok he ops hf
  obtain rfl : st0 = st := by rw [h1] at hrun; exact Res.ok.inj hrun
  obtain ⟨v, st', h4, h5, h6, h7, -, n, h9⟩ := full_run (st := { st0 with files := (payloadSet env st0.files input.payload).1 })
    (e := setEntry env now input) h2.refs h3 hns ha hfull hno
  have hm : ∀ files, entryGet env { st' with files := files } input.subspace input.path = .ok .missing := fun files =>
    full_missing hfull (by
      show ∀ k ∈ st'.kd, _
      rw [h6]
      exact full_absent hfull hno)
  unfold storeSet
  dsimp only
  rw [hauth]
  dsimp only
  rw [h4]
  dsimp only
  rw [show (payloadSet env st0.files input.payload).2.1 = (setEntry env now input).payloadDigest from rfl, h9]
  refine ⟨_, rfl, ?_⟩
  split
  · exact hm _
  · exact hm st'.files

example : cutEnv.authorise (setEntry cutEnv 0 ⟨[7], [[9, 9, 9, 9]], 5, [8]⟩) [7] = some [7] ∧
    FullEnd cutEnv.p [[9, 9, 9, 9], [255, 255, 255, 255]] :=
  ⟨rfl, ⟨by decide, by decide, by decide⟩, by decide, [], _, [_], rfl, rfl, by decide, by simp [cutEnv]⟩

end Willow.Props
