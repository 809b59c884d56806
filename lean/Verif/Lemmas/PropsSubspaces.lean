import Verif.Lemmas.Store
import Verif.Model.StoreRun
import Verif.Props.Encoding
import Verif.Props.Storage

/-! Calls for one subspace and the entries of another. -/

namespace Willow
open Spec Props

/-- The keys in the tree have paths within the limits. -/
def TreeValid (p : PathParams) (kd : List KdKey) : Prop := ∀ k ∈ kd, ValidPath p k.pos.path

/-- The part of the tree and of the database that belongs to a subspace is the same. -/
structure Untouched (p : PathParams) (s : Bytes) (st st' : StoreState) : Prop where
  kd : (st'.kd.filter fun k => decide (k.pos.subspace = s)) = st.kd.filter fun k => decide (k.pos.subspace = s)
  kv : ∀ pos : Position, pos.subspace = s → ValidPath p pos.path → st'.kv.get (encodeKey p pos) = st.kv.get (encodeKey p pos)

theorem Untouched.refl {p : PathParams} {s : Bytes} {st st' : StoreState} (hkd : st'.kd = st.kd) (hkv : st'.kv = st.kv) :
    Untouched p s st st' := ⟨by rw [hkd], fun _ _ _ => by rw [hkv]⟩

theorem Untouched.trans {p : PathParams} {s : Bytes} {st st' st'' : StoreState} (h : Untouched p s st st')
    (h' : Untouched p s st' st'') : Untouched p s st st'' :=
  ⟨h'.kd.trans h.kd, fun pos h1 h2 => (h'.kv pos h1 h2).trans (h.kv pos h1 h2)⟩

/-- Both together. -/
def Leaves (p : PathParams) (s : Bytes) (st st' : StoreState) : Prop :=
  Untouched p s st st' ∧ (TreeValid p st.kd → TreeValid p st'.kd)

theorem Leaves.refl {p : PathParams} {s : Bytes} {st st' : StoreState} (hkd : st'.kd = st.kd) (hkv : st'.kv = st.kv) :
    Leaves p s st st' := ⟨.refl hkd hkv, fun h => by rw [hkd]; exact h⟩

theorem Leaves.trans {p : PathParams} {s : Bytes} {st st' st'' : StoreState} (h : Leaves p s st st') (h' : Leaves p s st' st'') :
    Leaves p s st st'' := ⟨h.1.trans h'.1, fun hv => h'.2 (h.2 hv)⟩

theorem encodeKey_other {p : PathParams} {a b : Position} (ha : ShortPath p a.path)
    (hb : ShortPath p b.path) (h : a.subspace ≠ b.subspace) : encodeKey p a ≠ encodeKey p b := fun hk =>
  h (by rw [C23_injective_partial p a b ha hb hk])

theorem filter_eraseP_other {α : Type} (q : α → Bool) (f : α → Bool) (h : ∀ x, q x = true → f x = false) : ∀ l : List α,
    (l.eraseP q).filter f = l.filter f
  | [] => rfl
  | x :: l => by
    rw [List.eraseP_cons]
    by_cases hq : q x = true
    · simp [hq, h x hq]
    · rw [Bool.not_eq_true] at hq
      rw [hq, cond_false, List.filter_cons, List.filter_cons, filter_eraseP_other q f h l]

theorem entryDelete_leaves {env : StoreEnv} (he : EnvOk env) {s : Bytes} (st : StoreState) {e : Entry} (hs : e.subspaceId ≠ s)
    (hv : ValidPath env.p e.path) : Leaves env.p s st (entryDelete env st e) := by
  refine ⟨⟨?_, fun pos h1 h2 => ?_⟩, fun h k hk => h k (List.mem_of_mem_eraseP hk)⟩
  · refine filter_eraseP_other _ _ (fun x hx => ?_) st.kd
    simp only [decide_eq_true_eq] at hx
    rw [hx]
    exact decide_eq_false hs
  · show (st.kv.delete _).get _ = _
    rw [KV.get_delete, if_neg]
    exact encodeKey_other (shortPath_of_limits he.cc he.cl h2) (shortPath_of_limits he.cc he.cl hv) (by rw [h1]; exact fun h => hs h.symm)

theorem entryInsert_leaves {env : StoreEnv} (he : EnvOk env) {s : Bytes} (st : StoreState) {e : Entry} (auth : Bytes)
    (hs : e.subspaceId ≠ s) (hv : ValidPath env.p e.path) : Leaves env.p s st (entryInsert env st e auth).2 := by
  have hkv : ∀ pos : Position, pos.subspace = s → ValidPath env.p pos.path →
      (st.kv.set (encodeKey env.p e.position) (encodeValues
        { payloadLength := e.payloadLength, payloadDigest := e.payloadDigest, authDigest := auth })).get (encodeKey env.p pos) =
        st.kv.get (encodeKey env.p pos) := fun pos h1 h2 =>
    KV.get_set_ne _ _ (encodeKey_other (shortPath_of_limits he.cc he.cl h2) (shortPath_of_limits he.cc he.cl hv) (by rw [h1]; exact fun h => hs h.symm))
  unfold entryInsert kdAdd
  dsimp only
  split
  · exact ⟨⟨rfl, hkv⟩, id⟩
  · rename_i kd hkd
    split at hkd
    · cases hkd
    · cases hkd
      refine ⟨⟨?_, hkv⟩, fun h k hk => ?_⟩
      · simp only [List.filter_append]
        simp [Entry.position, hs]
      · rcases List.mem_append.1 hk with hk | hk
        · exact h k hk
        · rw [List.mem_singleton.1 hk]; exact hv

theorem prefixSuccessorMutatedLoop_length (c : Bytes) : ∀ i, (prefixSuccessorMutatedLoop c i).length = c.length
  | 0 => rfl
  | i + 1 => by
    unfold prefixSuccessorMutatedLoop
    split
    · split
      · simp
      · exact prefixSuccessorMutatedLoop_length c i
    · rfl

/-- The in-place change keeps the number and the lengths of the components. -/
theorem successorPrefixMutatedLoop_lengths (path : Path) (p : PathParams) : ∀ i,
    (successorPrefixMutatedLoop path p i).map List.length = path.map List.length
  | 0 => rfl
  | i + 1 => by
    unfold successorPrefixMutatedLoop
    split
    · rfl
    · rename_i c hc
      split
      · rfl
      · split
        · rw [List.map_set]
          apply List.ext_getElem?
          intro j
          rw [List.getElem?_set]
          split
          · rename_i hij
            subst hij
            rw [List.getElem?_map, hc]
            have : i < path.length := (List.getElem?_eq_some_iff.1 hc).1
            simp [prefixSuccessorMutated, prefixSuccessorMutatedLoop_length, this]
          · rfl
        · exact successorPrefixMutatedLoop_lengths path p i

theorem pathBytes_lengths (path : Path) : pathBytes path = (path.map List.length).sum := by
  unfold pathBytes
  induction path with
  | nil => rfl
  | cons c cs ih => simp_all

theorem validPath_lengths {p : PathParams} {a b : Path} (h : b.map List.length = a.map List.length) (hv : ValidPath p a) :
    ValidPath p b := by
  refine ⟨?_, fun c hc => ?_, ?_⟩
  · have := congrArg List.length h
    simp only [List.length_map] at this
    rw [this]; exact hv.count
  · have hm : c.length ∈ b.map List.length := List.mem_map_of_mem hc
    rw [h] at hm
    obtain ⟨d, hd, hcd⟩ := List.mem_map.1 hm
    rw [← hcd]; exact hv.comp d hd
  · rw [pathBytes_lengths, h, ← pathBytes_lengths]; exact hv.total

theorem corruptKey_leaves (p : PathParams) {s : Bytes} (st : StoreState) {pos : Position} (hs : pos.subspace ≠ s) (refs : KV) :
    Leaves p s st { st with refs := refs, kd := corruptKey p st.kd pos } := by
  refine ⟨⟨?_, fun _ _ _ => rfl⟩, fun h k hk => ?_⟩
  · show (corruptKey p st.kd pos).filter _ = _
    unfold corruptKey
    induction st.kd with
    | nil => rfl
    | cons k kd ih =>
      rw [List.map_cons, List.filter_cons, List.filter_cons, ih]
      by_cases hk : k.pos = pos
      · rw [if_pos hk]
        simp [hk, hs]
      · rw [if_neg hk]
  · obtain ⟨k', hk', rfl⟩ := List.mem_map.1 hk
    have h1 := h k' hk'
    split
    · rename_i heq
      rw [heq] at h1
      exact validPath_lengths (successorPrefixMutatedLoop_lengths pos.path p pos.path.length) h1
    · exact h1

theorem prunableLoop_mem {env : StoreEnv} {st : StoreState} {t : UInt64} : ∀ {l : List KdKey} {r : List (Entry × Bytes)},
    prunableLoop env st t l = .ok (some r) → ∀ x ∈ r, ∃ k ∈ l, x.1.subspaceId = k.pos.subspace ∧ x.1.path = k.pos.path
  | [], r, h, x, hx => by cases h; cases hx
  | k :: l, r, h, x, hx => by
    unfold prunableLoop at h
    split at h
    · obtain ⟨g, h1, h2⟩ := Res.bind_eq_ok.1 h
      cases g with
      | found e a =>
        obtain ⟨more, h3, h4⟩ := Res.bind_eq_ok.1 h2
        cases more with
        | none => cases h4
        | some more =>
          cases h4
          rcases List.mem_cons.1 hx with rfl | hx
          · refine ⟨k, by simp, ?_⟩
            unfold entryGet at h1
            obtain ⟨o, _, h5⟩ := Res.bind_eq_ok.1 h1
            cases o with
            | none => cases h5
            | some pos =>
              dsimp only at h5
              split at h5
              · cases h5
              · obtain ⟨v, _, h6⟩ := Res.bind_eq_ok.1 h5
                cases h6
                exact ⟨rfl, rfl⟩
          · obtain ⟨k', hk', hh⟩ := prunableLoop_mem h3 x hx
            exact ⟨k', by simp [hk'], hh⟩
      | missing => cases h2
      | error => cases h2
    · obtain ⟨k', hk', hh⟩ := prunableLoop_mem h x hx
      exact ⟨k', by simp [hk'], hh⟩

theorem pruneLoop_leaves {env : StoreEnv} (he : EnvOk env) {s : Bytes} : ∀ (l : List (Entry × Bytes)) (st : StoreState)
    {o : Option (List Entry)} {st' : StoreState},
    (∀ x ∈ l, x.1.subspaceId ≠ s ∧ ValidPath env.p x.1.path) → pruneLoop env l st = .ok (o, st') → Leaves env.p s st st'
  | [], st, o, st', _, h => by cases h; exact .refl rfl rfl
  | (e, a) :: l, st, o, st', hl, h => by
    have hd := entryDelete_leaves he st (hl (e, a) (by simp)).1 (hl (e, a) (by simp)).2
    unfold pruneLoop at h
    dsimp only at h
    split at h
    · rename_i count refs _
      refine hd.trans ?_
      split at h
      · rename_i pruned st'' hp
        cases h
        refine Leaves.trans ?_ (pruneLoop_leaves he l _ (fun x hx => hl x (by simp [hx])) hp)
        split <;> exact .refl rfl rfl
      · refine Leaves.trans ?_ (pruneLoop_leaves he l _ (fun x hx => hl x (by simp [hx])) h)
        split <;> exact .refl rfl rfl
    · cases h; exact hd
    · cases h
    · cases h

theorem belowRange_subspace {p : PathParams} {s : Bytes} {path : Path} {r : Range3d} (h : belowRange p s path = .ok r) :
    r.subspace = ⟨s, s ++ [0], false⟩ := by
  unfold belowRange at h
  obtain ⟨a, _, h⟩ := Res.bind_eq_ok.1 h
  obtain ⟨b, _, h⟩ := Res.bind_eq_ok.1 h
  cases h
  rfl

theorem pointRange_subspace {p : PathParams} {s : Bytes} {path : Path} {r : Range3d} (h : pointRange p s path = .ok r) :
    r.subspace = ⟨s, s ++ [0], false⟩ := by
  unfold pointRange at h
  obtain ⟨a, _, h⟩ := Res.bind_eq_ok.1 h
  cases h
  rfl

theorem query_subspace {r : Range3d} {s : Bytes} (hr : r.subspace = ⟨s, s ++ [0], false⟩)
    {k : KdKey} (hk : isIncluded3d orderSubspace r k.pos = true) : k.pos.subspace = s := by
  have h := ((isIncluded3d_iff decides_subspace _ _).1 hk).1
  rw [hr] at h
  exact (subspaceRange_iff s k.pos.subspace).1 h

theorem insertEntry_leaves {env : StoreEnv} (he : EnvOk env) {s : Bytes} (st : StoreState) {e : Entry} (tok : Bytes)
    (hs : e.subspaceId ≠ s) (hv : ValidPath env.p e.path) (ht : TreeValid env.p st.kd) {o : Option (List Entry)} {st' : StoreState}
    (h : insertEntry env st e tok = .ok (o, st')) : Leaves env.p s st st' := by
  unfold insertEntry at h
  dsimp only at h
  generalize hfiles : payloadSet env st.files (env.tokenEncode tok) = fs at h
  have hi := entryInsert_leaves he { st with files := fs.1 } fs.2.1 hs hv
  generalize entryInsert env { st with files := fs.1 } e fs.2.1 = x at h hi
  obtain ⟨b, st1⟩ := x
  have h0 : Leaves env.p s st { st with files := fs.1 } := .refl rfl rfl
  have h1 : Leaves env.p s st st1 := h0.trans hi
  cases b with
  | false => cases h; exact h1
  | true =>
    dsimp only at h
    split at h
    · rename_i c refs _
      have h2 := h1.trans (corruptKey_leaves env.p st1 (pos := e.position) hs refs)
      split at h
      · rename_i prunable hp
        refine h2.trans (pruneLoop_leaves he _ _ (fun x hx => ?_) h)
        unfold prunableEntries at hp
        obtain ⟨cands, hc, hp⟩ := Res.bind_eq_ok.1 hp
        obtain ⟨k, hk, hk1, hk2⟩ := prunableLoop_mem hp x hx
        unfold prefixedBy at hc
        obtain ⟨r, hr, hc⟩ := Res.bind_eq_ok.1 hc
        cases hc
        have hk' := List.mem_filter.1 ((env.lib.perm _ _).mem_iff.1 hk)
        rw [hk1, hk2, query_subspace (belowRange_subspace hr) hk'.2]
        exact ⟨hs, h2.2 ht k hk'.1⟩
      · cases h; exact h2
      · cases h
      · cases h
      · cases h
    · cases h
    · cases h
    · cases h

theorem finishIngest_leaves {env : StoreEnv} (he : EnvOk env) {s : Bytes} (st : StoreState) {e : Entry} (tok : Bytes)
    (hs : e.subspaceId ≠ s) (hv : ValidPath env.p e.path) (ht : TreeValid env.p st.kd) {o : Option (List Entry)} {st' : StoreState}
    (h : finishIngest env st e tok = .ok (o, st')) : Leaves env.p s st st' := by
  unfold finishIngest at h
  split at h
  · rename_i hi
    cases h
    exact (insertEntry_leaves he st tok hs hv ht hi).trans (.refl rfl rfl)
  · exact insertEntry_leaves he st tok hs hv ht h

theorem replaceOther_leaves {env : StoreEnv} (he : EnvOk env) {s : Bytes} (st : StoreState) {other e : Entry} (auth : Bytes)
    (hs : other.subspaceId ≠ s) (hv : ValidPath env.p other.path) {o : Option Unit} {st' : StoreState}
    (h : replaceOther env st other auth e = .ok (o, st')) : Leaves env.p s st st' := by
  have hd := entryDelete_leaves he st hs hv
  unfold replaceOther at h
  dsimp only at h
  split at h
  · split at h
    · cases h
      refine hd.trans ?_
      split <;> exact .refl rfl rfl
    · cases h; exact hd.trans (.refl rfl rfl)
    · cases h
    · cases h
  · cases h; exact hd.trans (.refl rfl rfl)

theorem entryGet_found {env : StoreEnv} {st : StoreState} {s : Bytes} {path : Path} {e : Entry} {a : Bytes}
    (h : entryGet env st s path = .ok (.found e a)) : e.subspaceId = s ∧ e.path = path := by
  unfold entryGet at h
  obtain ⟨o, _, h5⟩ := Res.bind_eq_ok.1 h
  cases o with
  | none => cases h5
  | some pos =>
    dsimp only at h5
    split at h5
    · cases h5
    · obtain ⟨v, _, h6⟩ := Res.bind_eq_ok.1 h5
      cases h6
      exact ⟨rfl, rfl⟩

theorem ingestEntry_leaves {env : StoreEnv} (he : EnvOk env) {s : Bytes} (st : StoreState) {e : Entry} (tok : Bytes)
    (hs : e.subspaceId ≠ s) (hv : ValidPath env.p e.path) (ht : TreeValid env.p st.kd) {o : Option (List Entry)} {st' : StoreState}
    (h : ingestEntry env st e tok = .ok (o, st')) : Leaves env.p s st st' := by
  have h0 : Leaves env.p s st { st with locked := true } := .refl rfl rfl
  unfold ingestEntry at h
  split at h
  · cases h
  dsimp only at h
  split at h
  · cases h; exact .refl rfl rfl
  split at h
  · cases h; exact .refl rfl rfl
  split at h
  · split at h
    · cases h; exact .refl rfl rfl
    split at h
    · cases h; exact h0
    · exact h0.trans (finishIngest_leaves he _ tok hs hv (h0.2 ht) h)
    · rename_i other otherAuth hg
      obtain ⟨g1, g2⟩ := entryGet_found hg
      split at h
      · split at h
        · cases h; exact .refl rfl rfl
        split at h
        · rename_i hr
          have h1 := h0.trans (replaceOther_leaves he _ otherAuth (by rw [g1]; exact hs) (by rw [g2]; exact hv) hr)
          exact h1.trans (finishIngest_leaves he _ tok hs hv (h1.2 ht) h)
        · rename_i hr
          cases h
          exact h0.trans (replaceOther_leaves he _ otherAuth (by rw [g1]; exact hs) (by rw [g2]; exact hv) hr)
        · cases h
        · cases h
        · cases h
      · exact h0.trans (finishIngest_leaves he _ tok hs hv (h0.2 ht) h)
    · cases h
    · cases h
    · cases h
  · cases h
  · cases h
  · cases h

theorem storeSet_leaves {env : StoreEnv} (he : EnvOk env) {s : Bytes} (st : StoreState) {now : UInt64} {input : EntryInput}
    (auth : Bytes) (hs : input.subspace ≠ s) (hv : ValidPath env.p input.path) (ht : TreeValid env.p st.kd)
    {o : Option (List Entry)} {st' : StoreState} (h : storeSet env st now input auth = .ok (o, st')) : Leaves env.p s st st' := by
  unfold storeSet at h
  dsimp only at h
  generalize payloadSet env st.files input.payload = fs at h
  have h0 : Leaves env.p s st { st with files := fs.1 } := .refl rfl rfl
  split at h
  · cases h; exact h0
  · rename_i tok _
    have hi := fun {o : Option (List Entry)} {st' : StoreState} => ingestEntry_leaves (o := o) (st' := st') he (s := s) { st with files := fs.1 }
      (e := setEntry env now input) tok hs hv ht
    split at h
    · rename_i hin
      have h1 := h0.trans (hi hin)
      split at h
      · cases h
        refine h1.trans ?_
        split <;> exact .refl rfl rfl
      · cases h; exact h1
      · cases h
      · cases h
    · exact h0.trans (hi h)

/-- The subspace and the path that a call is for. -/
def opTarget : StoreOp → Option (Bytes × Path)
  | .set _ input _ => some (input.subspace, input.path)
  | .ingest e _ => some (e.subspaceId, e.path)
  | .restart => none

theorem runOps_leaves {env : StoreEnv} (he : EnvOk env) {s : Bytes} : ∀ (ops : List StoreOp) (st : StoreState) {st' : StoreState},
    TreeValid env.p st.kd → (∀ op ∈ ops, ∃ x, opTarget op = some x ∧ x.1 ≠ s ∧ ValidPath env.p x.2) →
    runOps env st ops = .ok st' → Leaves env.p s st st'
  | [], st, st', _, _, h => by cases h; exact .refl rfl rfl
  | op :: ops, st, st', ht, hops, h => by
    obtain ⟨⟨o, st1⟩, h1, h2⟩ := Res.bind_eq_ok.1 h
    obtain ⟨x, hx, hs, hv⟩ := hops op (by simp)
    have hl : Leaves env.p s st st1 := by
      cases op with
      | set now input auth => cases hx; exact storeSet_leaves he st auth hs hv ht h1
      | ingest e tok => cases hx; exact ingestEntry_leaves he st tok hs hv ht h1
      | restart => cases hx
    exact hl.trans (runOps_leaves he ops st1 (hl.2 ht) (fun op hop => hops op (by simp [hop])) h2)

/-- Lookups in a subspace that was not touched give the same. -/
theorem entryGet_untouched {env : StoreEnv} {s : Bytes} {st st' : StoreState} (h : Untouched env.p s st st')
    (ht : TreeValid env.p st.kd) (path : Path) : entryGet env st' s path = entryGet env st s path := by
  unfold entryGet storageGet
  cases hr : pointRange env.p s path with
  | ok r =>
    simp only [Res.ok_bind]
    have hf : (st'.kd.filter fun k => isIncluded3d orderSubspace r k.pos) =
        st.kd.filter fun k => isIncluded3d orderSubspace r k.pos := by
      have h1 : ∀ kd : List KdKey, (kd.filter fun k => isIncluded3d orderSubspace r k.pos) =
          (kd.filter fun k => decide (k.pos.subspace = s)).filter fun k => isIncluded3d orderSubspace r k.pos := by
        intro kd
        rw [List.filter_filter]
        apply List.filter_congr
        intro k _
        cases hi : isIncluded3d orderSubspace r k.pos
        · rfl
        · simp [query_subspace (pointRange_subspace hr) hi]
      rw [h1, h.kd, ← h1]
    have hp : (env.lib.query st'.kd r).Perm (env.lib.query st.kd r) :=
      (env.lib.perm _ _).trans (by rw [hf]; exact (env.lib.perm _ _).symm)
    have hm : ∀ k ∈ env.lib.query st.kd r, k.pos.subspace = s ∧ ValidPath env.p k.pos.path := fun k hk => by
      have hk' := List.mem_filter.1 ((env.lib.perm _ _).mem_iff.1 hk)
      exact ⟨query_subspace (pointRange_subspace hr) hk'.2, ht k hk'.1⟩
    generalize env.lib.query st.kd r = q at hp hm
    generalize env.lib.query st'.kd r = q' at hp
    match q, q', hp with
    | [], q', hp => rw [List.perm_nil.1 hp]; rfl
    | [k], q', hp =>
      rw [List.perm_singleton.1 hp]
      simp only [Res.ok_bind]
      rw [h.kv k.pos (hm k (by simp)).1 (hm k (by simp)).2]
    | a :: b :: q, q', hp =>
      have hl := hp.length_eq
      match q', hl with
      | a' :: b' :: q', _ => rfl
  | err => rfl
  | crash => rfl
  | block => rfl

end Willow
