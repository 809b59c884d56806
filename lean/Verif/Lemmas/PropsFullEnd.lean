import Verif.Lemmas.PropsFullComponent
import Verif.Spec.Limits

/-! Calls for paths whose last smaller component is full, on any store. -/

namespace Willow
open Spec Props

theorem fullEnd_split {p : PathParams} {path : Path} (h : FullEnd p path) :
    ∃ pre x b k post, b ≠ 255 ∧ path = pre ++ (x ++ b :: List.replicate k 255) :: post ∧
      (x ++ b :: List.replicate k 255).length = p.cl ∧ ∀ d ∈ post, d = List.replicate p.cl 255 := by
  obtain ⟨pre, c, post, rfl, hc, hn, hpost⟩ := h.full
  obtain ⟨x, b, k, hb, rfl⟩ := exists_last_below c (Classical.byContradiction fun h => hn (List.eq_replicate_iff.2 ⟨hc, fun b hb =>
    Classical.byContradiction fun hb' => h ⟨b, hb, hb'⟩⟩))
  exact ⟨pre, x, b, k, post, hb, rfl, hc, hpost⟩

/-- The path that the tree gets. -/
theorem fullEnd_mutated {p : PathParams} {path : Path} (h : FullEnd p path) :
    PathLt path (successorPrefixMutated path p) ∧ ValidPath p (successorPrefixMutated path p) ∧
      (successorPrefixMutated path p).length = path.length := by
  obtain ⟨pre, x, b, k, post, hb, rfl, hlen, hpost⟩ := fullEnd_split h
  rw [successorPrefixMutated_full hb hlen hpost]
  have hv := h.valid
  refine ⟨?_, ⟨?_, fun d hd => ?_, ?_⟩, by simp⟩
  · rw [PathLt, lexLt_append_left bytesLt_strictTotal.irrefl]
    refine .inl ?_
    rw [BytesLt, lexLt_append_left (fun _ h => Nat.lt_irrefl _ (UInt8.lt_iff_toNat_lt.1 h))]
    exact .inl (u8_succ_lt hb)
  · simpa using hv.count
  · rcases List.mem_append.1 hd with hd | hd
    · exact hv.comp d (by simp [hd])
    · rcases List.mem_cons.1 hd with rfl | hd
      · have := hv.comp (x ++ b :: List.replicate k 255) (by simp)
        simpa using this
      · exact hv.comp d (by simp [hd])
  · have := hv.total
    rw [pathBytes_append, pathBytes_cons] at this ⊢
    simpa using this

/-- The range made of an area with such a path is empty. -/
theorem fullEnd_area {p : PathParams} {a : Area} (h : FullEnd p a.path) (minimal : Bytes) (succ : Bytes → Bytes) :
    ∃ r, areaTo3dRange minimal succ p a = .ok r ∧ ∀ x, ¬ InRange PathLt r.path x := by
  unfold areaTo3dRange
  obtain ⟨pre, x, b, k, post, hb, hpath, hlen, hpost⟩ := fullEnd_split h
  have hv := h.valid
  rw [hpath] at hv ⊢
  rw [successorPrefix_full hb hlen hpost hv, successorPrefixMutated_full (pre := pre) hb hlen hpost]
  refine ⟨_, rfl, fun y ⟨hstart, hend⟩ => ?_⟩
  have hend := hend.resolve_left (by simp)
  simp only [Option.getD_some] at hend hstart
  have hle : pre ++ [x ++ [b + 1]] = pre ++ (x ++ (b + 1) :: List.replicate k 255) :: post ∨
      PathLt (pre ++ [x ++ [b + 1]]) (pre ++ (x ++ (b + 1) :: List.replicate k 255) :: post) := by
    cases k with
    | zero =>
      cases post with
      | nil => exact .inl rfl
      | cons d post =>
        refine .inr ?_
        rw [PathLt, lexLt_append_left bytesLt_strictTotal.irrefl]
        exact .inr ⟨rfl, lexLt_append [] (by simp)⟩
    | succ k =>
      refine .inr ?_
      rw [PathLt, lexLt_append_left bytesLt_strictTotal.irrefl]
      refine .inl ?_
      rw [show x ++ (b + 1) :: List.replicate (k + 1) 255 = (x ++ [b + 1]) ++ List.replicate (k + 1) 255 by simp]
      exact lexLt_append _ (by simp)
  rcases hle with hle | hle
  · rw [hle] at hend; exact hstart hend
  · exact hstart (pathLt_strictTotal.trans _ _ _ hend hle)

/-- Whatever the ranges, what is in their intersection is in both. -/
theorem intersectRange_both {α : Type} {lt : α → α → Prop} {cmp : α → α → Ordering} (hs : StrictTotal lt) (hd : Decides lt cmp)
    {dflt : α} {a b r : GRange α} (h : intersectRange dflt cmp a b = some r) (x : α) (hx : InRange lt r x) :
    InRange lt a x ∧ InRange lt b x := by
  obtain ⟨as, ae, ao⟩ := a
  obtain ⟨bs, be, bo⟩ := b
  have hge : ∀ {u v : α}, ¬ lt u v → (cmp u v != Ordering.lt) = true := fun hn => by
    rw [bne_iff_ne]; exact fun hc => hn ((hd.lt_iff _ _).1 hc)
  have t1 : ∀ {u v : α}, cmp u v ≠ .gt → ¬ lt v u := fun hn hc => hn ((hd.gt_iff _ _).2 hc)
  have t2 : ∀ {u v : α}, cmp u v ≠ .lt → ¬ lt u v := fun hn hc => hn ((hd.lt_iff _ _).2 hc)
  have t3 : ∀ {u v : α}, cmp u v = .gt → lt v u := fun hn => (hd.gt_iff _ _).1 hn
  have t4 : ∀ {u v : α}, cmp u v = .lt → lt u v := fun hn => (hd.lt_iff _ _).1 hn
  have tr := hs.trans
  have tt := hs.tri
  unfold InRange at *
  cases ao <;> cases bo <;> simp [intersectRange, orderRangePair] at h <;> grind

theorem intersectRange3d_path {ordS : Bytes → Bytes → Ordering} {a b r : Range3d}
    (h : intersectRange3d ordS a b = some r) (x : Path) (hx : InRange PathLt r.path x) :
    InRange PathLt a.path x ∧ InRange PathLt b.path x := by
  unfold intersectRange3d at h
  split at h
  · cases h
  · split at h
    · cases h
    · split at h
      · cases h
      · rename_i hp
        cases h
        exact intersectRange_both pathLt_strictTotal decides_path hp x hx

/-- Nothing is in the range searched for entries to prune. -/
theorem fullEnd_below {p : PathParams} {path : Path} (h : FullEnd p path) (s : Bytes) :
    ∃ r, belowRange p s path = .ok r ∧ ∀ pos, ¬ InRange3d r pos := by
  have h1 := successorPath_short h.valid h.room
  obtain ⟨pre, x, b, k, post, hb, rfl, hlen, hpost⟩ := fullEnd_split h
  have h2 := successorPrefix_full hb hlen hpost h.valid
  have h3 := successorPrefixMutated_full (pre := pre) hb hlen hpost
  refine ⟨⟨⟨s, successorSubspaceId s, false⟩, ⟨pre ++ (x ++ (b + 1) :: List.replicate k 255) :: post ++ [[]], pre ++ [x ++ [b + 1]], false⟩,
    ⟨0, 2, true⟩⟩, ?_, fun pos hin => ?_⟩
  · unfold belowRange
    rw [h1, h2, h3]
    simp only [Res.ok_bind, Option.getD_some]
    rw [if_pos (by simp; omega), List.drop_left]
  · obtain ⟨-, ⟨hstart, hend⟩, -⟩ := hin
    have hend := hend.resolve_left (by simp)
    have hlt : PathLt (pre ++ [x ++ [b + 1]]) (pre ++ (x ++ (b + 1) :: List.replicate k 255) :: post ++ [[]]) := by
      rw [List.append_assoc, PathLt, lexLt_append_left bytesLt_strictTotal.irrefl]
      cases k with
      | zero => exact .inr ⟨rfl, lexLt_append [] (by simp)⟩
      | succ k =>
        refine .inl ?_
        rw [show x ++ (b + 1) :: List.replicate (k + 1) 255 = (x ++ [b + 1]) ++ List.replicate (k + 1) 255 by simp]
        exact lexLt_append _ (by simp)
    exact hstart (pathLt_strictTotal.trans _ _ _ hend hlt)

/-- An entry whose path ends with a full component is stored in the tree under another path, and nothing is pruned. -/
theorem ingest_full {env : StoreEnv} {st : StoreState} {e : Entry} {tok : Bytes} (hl : st.locked = false)
    (hns : env.nsEqual env.namespaceId e.namespaceId = true) (ha : env.isAuthorised e tok = true) (hfull : FullEnd env.p e.path)
    (hkd : ∀ k ∈ st.kd, k.pos.subspace = e.subspaceId → ¬ k.pos.path <+: e.path)
    {c : UInt64} {refs : KV} (hrefs : refIncrement st.refs e.payloadDigest = .ok (c, refs)) :
    ingestEntry env st e tok = .ok (some [], { st with
      kv := st.kv.set (encodeKey env.p e.position) (encodeValues ⟨e.payloadLength, e.payloadDigest, (payloadSet env st.files (env.tokenEncode tok)).2.1⟩)
      kd := st.kd ++ [⟨⟨e.subspaceId, successorPrefixMutated e.path env.p, e.timestamp⟩, []⟩], refs := refs, files := (payloadSet env st.files (env.tokenEncode tok)).1, locked := false }) := by
  have hne : e.path ≠ [] := by
    obtain ⟨pre, x, b, k, post, -, h, -⟩ := fullEnd_split hfull
    rw [h]; simp
  have hpre : driverPrefixesOf env.lib env.p st.kd e.subspaceId e.path = .ok [] := by
    obtain ⟨ks, h1, h2⟩ := driverPrefixesOf_ok env.lib env.p st.kd e.subspaceId e.path hfull.valid hne
    rw [List.filter_eq_nil_iff.2 (fun k hk => by
      rw [decide_eq_true_eq]
      exact fun h => hkd k hk h.1 h.2.1)] at h2
    rw [h1, List.perm_nil.1 h2]
  have hget : entryGet env { st with locked := true } e.subspaceId e.path = .ok .missing := by
    obtain ⟨r, h1, h2⟩ := pointRange_short hfull.valid hfull.room e.subspaceId
    unfold entryGet storageGet
    rw [h1]
    simp only [Res.ok_bind]
    rw [query_nil env.lib st.kd r (fun k hk hin => by
      obtain ⟨h3, h4⟩ := (h2 _).1 hin
      exact hkd k hk h3 (h4 ▸ List.prefix_refl _))]
    rfl
  have hpos : ∀ k ∈ st.kd, k.pos ≠ e.position := fun k hk h =>
    hkd k hk (by rw [h]; rfl) (by rw [h]; exact List.prefix_refl _)
  unfold ingestEntry
  rw [hl, hns, ha, hpre]
  simp only [Bool.false_eq_true, if_false, Bool.not_true, List.any_nil]
  rw [hget]
  dsimp only
  have hadd : kdAdd st.kd ⟨e.position, []⟩ = some (st.kd ++ [⟨e.position, []⟩]) := by
    unfold kdAdd
    rw [if_neg]
    rw [List.any_eq_true]
    rintro ⟨k, hk, hk'⟩
    simp only [decide_eq_true_eq] at hk'
    exact hpos k hk hk'
  unfold finishIngest insertEntry entryInsert
  dsimp only
  rw [hadd]
  dsimp only
  rw [hrefs]
  dsimp only
  have hcor : corruptKey env.p (st.kd ++ [⟨e.position, []⟩]) e.position =
      st.kd ++ [⟨⟨e.subspaceId, successorPrefixMutated e.path env.p, e.timestamp⟩, []⟩] := by
    unfold corruptKey
    rw [List.map_append]
    congr 1
    · refine (List.map_congr_left (g := id) fun k hk => ?_).trans (List.map_id _)
      rw [if_neg (hpos k hk)]
      rfl
    · simp [Entry.position]
  rw [hcor]
  unfold prunableEntries prefixedBy
  obtain ⟨r, hr, hin⟩ := fullEnd_below hfull e.subspaceId
  rw [show belowRange env.p e.position.subspace e.position.path = .ok r from hr]
  simp only [Res.ok_bind]
  rw [query_nil env.lib _ r fun k _ => hin _]
  rfl

/-- The new key in the tree is not at a prefix of the path. -/
theorem fullEnd_absent {p : PathParams} {path : Path} (h : FullEnd p path) : ¬ successorPrefixMutated path p <+: path := by
  intro hp
  have h1 := fullEnd_mutated h
  have := h1.1
  rw [hp.eq_of_length h1.2.2] at this
  exact pathLt_strictTotal.irrefl _ this

/-- `ingest_full` on a store made by fine calls, possibly with other files. -/
theorem full_run {env : StoreEnv} {st : StoreState} {A : List Item} {leak : Bytes → Nat} (href : RefsOk st.refs A leak)
    {e : Entry} {tok : Bytes} (hl : st.locked = false)
    (hns : env.nsEqual env.namespaceId e.namespaceId = true) (ha : env.isAuthorised e tok = true) (hfull : FullEnd env.p e.path)
    (hkd : ∀ k ∈ st.kd, k.pos.subspace = e.subspaceId → ¬ k.pos.path <+: e.path) :
    ∃ v st', ingestEntry env st e tok = .ok (some [], st') ∧ st'.kv = st.kv.set (encodeKey env.p e.position) v ∧
      st'.kd = st.kd ++ [⟨⟨e.subspaceId, successorPrefixMutated e.path env.p, e.timestamp⟩, []⟩] ∧ st'.locked = false ∧
      (∃ B, RefsOk st'.refs B leak) ∧ ∃ n, refCount st'.refs e.payloadDigest = .ok n := by
  obtain ⟨n, refs, h5, h6⟩ := href.increment ⟨e.position, ⟨0, e.payloadDigest, []⟩⟩
  refine ⟨_, _, ingest_full hl hns ha hfull hkd h5, rfl, rfl, rfl, ⟨_, h6⟩, n, ?_⟩
  unfold refIncrement at h5
  obtain ⟨m, -, h⟩ := Res.bind_eq_ok.1 h5
  cases h
  unfold refCount
  rw [KV.get_set, if_pos rfl]
  exact bigEndianUint64_putU64 _

/-- The tree with the new key still has none at a prefix of the path. -/
theorem full_absent {env : StoreEnv} {kd : List KdKey} {s : Bytes} {path : Path} {t : UInt64} (hfull : FullEnd env.p path)
    (hkd : ∀ k ∈ kd, k.pos.subspace = s → ¬ k.pos.path <+: path) :
    ∀ k ∈ kd ++ [⟨⟨s, successorPrefixMutated path env.p, t⟩, []⟩], k.pos.subspace = s → ¬ k.pos.path <+: path := by
  intro k hk
  rcases List.mem_append.1 hk with hk | hk
  · exact hkd k hk
  · rw [List.mem_singleton.1 hk]
    exact fun _ => fullEnd_absent hfull

theorem full_missing {env : StoreEnv} {st : StoreState} {s : Bytes} {path : Path} (hfull : FullEnd env.p path)
    (hkd : ∀ k ∈ st.kd, k.pos.subspace = s → ¬ k.pos.path <+: path) : entryGet env st s path = .ok .missing := by
  obtain ⟨r, h1, h2⟩ := pointRange_short hfull.valid hfull.room s
  unfold entryGet storageGet
  rw [h1]
  simp only [Res.ok_bind]
  rw [query_nil env.lib st.kd r (fun k hk hin => by
    obtain ⟨h3, h4⟩ := (h2 _).1 hin
    exact hkd k hk h3 (h4 ▸ List.prefix_refl _))]
  rfl

end Willow
