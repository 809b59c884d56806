import Verif.Lemmas.PropsInvalidPaths
import Verif.Props.Store

/-! A path of 257 components in the store of the application. -/

namespace Willow
open Spec Props

/-- The largest component. -/
def fullComponent : Bytes := List.replicate 50 255

/-- 49 empty components, then `m` times the largest. -/
def emptyThenFull (m : Nat) : Path := List.replicate 49 [] ++ List.replicate m fullComponent

theorem emptyThenFull_eq (m : Nat) : emptyThenFull m = List.replicate 48 [] ++ [] :: List.replicate m fullComponent := by
  unfold emptyThenFull
  rw [show (49 : Nat) = 48 + 1 from rfl, List.replicate_succ', List.append_assoc]
  rfl

theorem emptyThenFull_post (m : Nat) : ∀ d ∈ List.replicate m fullComponent, d = List.replicate appParams.cl 255 :=
  fun d hd => (List.mem_replicate.1 hd).2

theorem emptyThenFull_length (m : Nat) : (emptyThenFull m).length = 49 + m := by
  unfold emptyThenFull
  rw [List.length_append, List.length_replicate, List.length_replicate]

theorem emptyThenFull_append : pathAppend (List.replicate 48 []) ([] ++ [0]) appParams = .ok (List.replicate 48 [] ++ [[] ++ [0]]) :=
  pathAppend_succeeds (by decide) (by decide)

theorem successorPath_full257 {m : Nat} (h1 : 1 ≤ m) (h2 : m ≤ 208) :
    successorPath (emptyThenFull m) appParams = .ok (some (List.replicate 48 [] ++ [[0]])) := by
  unfold successorPath
  rw [emptyThenFull_length, if_neg (by omega), conv_of_le (y := 300) (by omega) (by decide), if_neg (by simp [appParams]; omega)]
  rw [emptyThenFull_eq]
  have := (loops_skip (p := appParams) (pre := List.replicate 48 []) (c := []) (emptyThenFull_post m) m (by simp)).1
  rw [List.length_replicate] at this
  rw [show 49 + m = 48 + 1 + m from rfl, this]
  unfold successorPathLoop
  rw [List.getElem?_append_right (by simp), List.length_replicate, Nat.sub_self, List.getElem?_cons_zero]
  simp only [show tryAppendZeroByte [] appParams = some ([] ++ [0]) from rfl]
  rw [List.take_left' (by simp), emptyThenFull_append]
  rfl

theorem successorPrefix_full257 (m : Nat) :
    successorPrefix (emptyThenFull m) appParams = .ok (some (List.replicate 48 [] ++ [[0]])) := by
  unfold successorPrefix
  rw [emptyThenFull_length, emptyThenFull_eq]
  have := (loops_skip (p := appParams) (pre := List.replicate 48 []) (c := []) (emptyThenFull_post m) m (by simp)).2.1
  rw [List.length_replicate] at this
  rw [show 49 + m = 48 + 1 + m from rfl, this]
  unfold successorPrefixLoop
  rw [List.getElem?_append_right (by simp), List.length_replicate, Nat.sub_self, List.getElem?_cons_zero]
  simp only [show tryAppendZeroByte [] appParams = some ([] ++ [0]) from rfl]
  rw [List.take_left' (by simp), emptyThenFull_append]
  rfl

theorem successorPrefixMutated_full257 (m : Nat) : successorPrefixMutated (emptyThenFull m) appParams = emptyThenFull m := by
  rw [emptyThenFull_eq]
  exact successorPrefixMutated_room (by decide) (emptyThenFull_post m)

theorem emptyThenFull_prefix {q : Path} (hq : q <+: emptyThenFull 208) (hne : q ≠ []) : ∃ x, successorPath q appParams = .ok x := by
  rw [List.prefix_iff_eq_take] at hq
  have hpos : 0 < q.length := List.length_pos_iff.2 hne
  generalize q.length = n at hq hpos
  subst hq
  unfold emptyThenFull
  rw [List.take_append, List.take_replicate, List.take_replicate, List.length_replicate]
  by_cases hn : n ≤ 49
  · rw [show n - 49 = 0 by omega, Nat.zero_min, List.replicate_zero, List.append_nil, Nat.min_eq_left hn]
    refine ⟨_, successorPath_short ⟨by simp [appParams]; omega, fun c hc => ?_, ?_⟩ (by simp [appParams]; omega)⟩
    · rw [(List.mem_replicate.1 hc).2]; decide
    · rw [pathBytes_lengths]; simp
  · rw [Nat.min_eq_right (by omega)]
    exact ⟨_, successorPath_full257 (by omega) (Nat.min_le_right ..)⟩

/-- When no key of the subspace is in the tree, an entry is stored if the successors of its path and of
the path's prefixes can be computed. -/
theorem ingest_mutated {env : StoreEnv} {st : StoreState} {e : Entry} {tok : Bytes} (hl : st.locked = false)
    (hns : env.nsEqual env.namespaceId e.namespaceId = true) (ha : env.isAuthorised e tok = true)
    (hkd : ∀ k ∈ st.kd, k.pos.subspace ≠ e.subspaceId) (hne : e.path ≠ [])
    (hs : ∀ q, q <+: e.path → q ≠ [] → ∃ x, successorPath q env.p = .ok x)
    {r : Range3d} (hr : belowRange env.p e.subspaceId e.path = .ok r) (hin : isIncluded3d orderSubspace r
      ⟨e.subspaceId, successorPrefixMutated e.path env.p, e.timestamp⟩ = false)
    {c : UInt64} {refs : KV} (hrefs : refIncrement st.refs e.payloadDigest = .ok (c, refs)) :
    ingestEntry env st e tok = .ok (some [], { st with
      kv := st.kv.set (encodeKey env.p e.position) (encodeValues ⟨e.payloadLength, e.payloadDigest, (payloadSet env st.files (env.tokenEncode tok)).2.1⟩)
      kd := st.kd ++ [⟨⟨e.subspaceId, successorPrefixMutated e.path env.p, e.timestamp⟩, []⟩], refs := refs, files := (payloadSet env st.files (env.tokenEncode tok)).1, locked := false }) := by
  have hq : ∀ r', r'.subspace = ⟨e.subspaceId, e.subspaceId ++ [0], false⟩ → env.lib.query st.kd r' = [] := fun r' h' => by
    rw [List.eq_nil_iff_forall_not_mem]
    intro k hk
    have := List.mem_filter.1 ((env.lib.perm _ _).mem_iff.1 hk)
    exact hkd k this.1 (query_subspace h' this.2)
  have hpre : driverPrefixesOf env.lib env.p st.kd e.subspaceId e.path = .ok [] := by
    obtain ⟨ps, h1, hnd, h3⟩ := properPrefixes e.path hne
    unfold driverPrefixesOf
    dsimp only
    rw [h1]
    have h4 : ∀ q ∈ ps, q <+: e.path ∧ q ≠ [] := fun q hq => ⟨((h3 q).1 hq).1, ((h3 q).1 hq).2.1⟩
    clear h1 h3 hnd
    simp only [Res.ok_bind]
    induction ps with
    | nil => rfl
    | cons q ps ih =>
      unfold driverPrefixesLoop
      obtain ⟨x, hx⟩ := hs q (h4 q (by simp)).1 (h4 q (by simp)).2
      have hp : pointRange env.p e.subspaceId q = .ok
          ⟨⟨e.subspaceId, successorSubspaceId e.subspaceId, false⟩, ⟨q, x.getD [], false⟩, ⟨0, 2, true⟩⟩ := by
        unfold pointRange; rw [hx]; rfl
      rw [hp, ih (fun q hq => h4 q (by simp [hq]))]
      simp only [Res.ok_bind]
      rw [hq _ rfl]
      rfl
  have hget : entryGet env { st with locked := true } e.subspaceId e.path = .ok .missing := by
    obtain ⟨x, hx⟩ := hs e.path (List.prefix_refl _) hne
    have hp : pointRange env.p e.subspaceId e.path = .ok
        ⟨⟨e.subspaceId, successorSubspaceId e.subspaceId, false⟩, ⟨e.path, x.getD [], false⟩, ⟨0, 2, true⟩⟩ := by
      unfold pointRange; rw [hx]; rfl
    unfold entryGet storageGet
    rw [hp]
    simp only [Res.ok_bind]
    rw [hq _ rfl]
    rfl
  unfold ingestEntry
  rw [hl, hns, ha, hpre]
  simp only [Bool.false_eq_true, if_false, Bool.not_true, List.any_nil]
  rw [hget]
  dsimp only
  have hadd : kdAdd st.kd ⟨e.position, []⟩ = some (st.kd ++ [⟨e.position, []⟩]) := by
    unfold kdAdd
    rw [if_neg]
    rw [List.any_eq_true]
    rintro ⟨k, hk, hk'⟩
    simp only [decide_eq_true_eq] at hk'
    exact hkd k hk (by rw [hk']; rfl)
  unfold finishIngest insertEntry entryInsert
  dsimp only
  rw [hadd]
  dsimp only
  rw [hrefs]
  dsimp only
  have hcor : corruptKey env.p (st.kd ++ [⟨e.position, []⟩]) e.position =
      st.kd ++ [⟨⟨e.subspaceId, successorPrefixMutated e.path env.p, e.timestamp⟩, []⟩] := by
    unfold corruptKey
    rw [List.map_append]
    congr 1
    · refine (List.map_congr_left (g := id) fun k hk => ?_).trans (List.map_id _)
      rw [if_neg]
      · rfl
      · intro h
        exact hkd k hk (by rw [h]; rfl)
    · simp [Entry.position]
  rw [hcor]
  unfold prunableEntries prefixedBy
  rw [show belowRange env.p e.position.subspace e.position.path = .ok r from hr]
  simp only [Res.ok_bind]
  have hq' : env.lib.query (st.kd ++ [⟨⟨e.subspaceId, successorPrefixMutated e.path env.p, e.timestamp⟩, []⟩]) r = [] := by
    rw [List.eq_nil_iff_forall_not_mem]
    intro k hk
    have := List.mem_filter.1 ((env.lib.perm _ _).mem_iff.1 hk)
    rcases List.mem_append.1 this.1 with h | h
    · exact hkd k h (query_subspace (belowRange_subspace hr) this.2)
    · rw [List.mem_singleton.1 h] at this
      rw [hin] at this
      cases this.2
  rw [hq']
  rfl

theorem ingest_fresh {env : StoreEnv} {st : StoreState} {e : Entry} {tok : Bytes} (hl : st.locked = false)
    (hns : env.nsEqual env.namespaceId e.namespaceId = true) (ha : env.isAuthorised e tok = true)
    (hkd : ∀ k ∈ st.kd, k.pos.subspace ≠ e.subspaceId) (hne : e.path ≠ [])
    (hs : ∀ q, q <+: e.path → q ≠ [] → ∃ x, successorPath q env.p = .ok x)
    {r : Range3d} (hr : belowRange env.p e.subspaceId e.path = .ok r) (hin : isIncluded3d orderSubspace r e.position = false)
    (hm : successorPrefixMutated e.path env.p = e.path) {c : UInt64} {refs : KV} (hrefs : refIncrement st.refs e.payloadDigest = .ok (c, refs)) :
    ingestEntry env st e tok = .ok (some [], { st with
      kv := st.kv.set (encodeKey env.p e.position) (encodeValues ⟨e.payloadLength, e.payloadDigest, (payloadSet env st.files (env.tokenEncode tok)).2.1⟩)
      kd := st.kd ++ [⟨e.position, []⟩], refs := refs, files := (payloadSet env st.files (env.tokenEncode tok)).1, locked := false }) := by
  have := ingest_mutated hl hns ha hkd hne hs hr (by rw [hm]; exact hin) hrefs
  rw [hm] at this
  exact this

theorem belowRange_full257 (s : Bytes) : belowRange appParams s (emptyThenFull 208) = .ok
    ⟨⟨s, s ++ [0], false⟩, ⟨List.replicate 48 [] ++ [[0]], List.replicate 48 [] ++ [[0]], false⟩, ⟨0, 2, true⟩⟩ := by
  unfold belowRange
  rw [successorPath_full257 (by decide) (by decide), successorPrefix_full257]
  simp only [Res.ok_bind, Option.getD_some]
  rw [if_neg (by rw [emptyThenFull_length]; simp)]
  rfl

theorem nothing_between (s : Bytes) (path : Path) (time : GRange UInt64) (pos : Position) :
    isIncluded3d orderSubspace ⟨⟨s, s ++ [0], false⟩, ⟨path, path, false⟩, time⟩ pos = false := by
  rw [Bool.eq_false_iff]
  intro h
  have := ((isIncluded3d_iff decides_subspace _ _).1 h).2.1
  rcases this.2 with h1 | h1
  · cases h1
  · exact this.1 h1

/-- What the encoding of `emptyThenFull 208` has after its first component, then the subspace. -/
def forgedSubspace (s : Bytes) : Bytes := List.replicate 48 0 ++ (List.replicate 208 (50 :: fullComponent)).flatten ++ s

theorem encodeComponents_append (p : PathParams) (a b : Path) : encodeComponents p (a ++ b) = encodeComponents p a ++ encodeComponents p b := by
  induction a with
  | nil => rfl
  | cons c a ih => simp only [List.cons_append, encodeComponents, ih, List.append_assoc]

theorem encodeComponents_replicate (p : PathParams) (n : Nat) (c : Bytes) :
    encodeComponents p (List.replicate n c) = (List.replicate n (encodeIntMax32 (p.conv c.length) p.cl ++ c)).flatten := by
  induction n with
  | zero => rfl
  | succ n ih => simp only [List.replicate_succ, encodeComponents, ih, List.flatten_cons]

theorem forged_key (s : Bytes) (t : UInt64) :
    encodeKey appParams ⟨s, emptyThenFull 208, t⟩ = encodeKey appParams ⟨forgedSubspace s, [[]], t⟩ := by
  have h1 : encodeComponents appParams (emptyThenFull 208) = 0 :: (List.replicate 48 0 ++ (List.replicate 208 (50 :: fullComponent)).flatten) := by
    unfold emptyThenFull
    rw [encodeComponents_append, encodeComponents_replicate, encodeComponents_replicate]
    have h2 : encodeIntMax32 (appParams.conv ([] : Bytes).length) appParams.cl ++ [] = [0] := by decide
    have h3 : encodeIntMax32 (appParams.conv fullComponent.length) appParams.cl ++ fullComponent = 50 :: fullComponent := by decide
    have h4 : (List.replicate 49 [(0 : UInt8)]).flatten = 0 :: List.replicate 48 0 := by decide
    rw [h2, h3, h4]
    rfl
  unfold encodeKey encodePath
  dsimp only
  rw [h1, emptyThenFull_length]
  have h5 : encodeIntMax32 (appParams.conv (49 + 208)) appParams.cc = [1] := by decide
  have h6 : encodeIntMax32 (appParams.conv ([[]] : Path).length) appParams.cc ++ encodeComponents appParams [[]] = [1, 0] := by decide
  rw [h5, h6]
  unfold forgedSubspace
  simp only [List.append_assoc, List.cons_append, List.nil_append]

theorem forgedSubspace_ne (s : Bytes) : forgedSubspace s ≠ s := by
  intro h
  have := congrArg List.length h
  unfold forgedSubspace at this
  rw [List.length_append, List.length_append, List.length_replicate] at this
  omega

/-- A path with one empty component. -/
theorem belowRange_single (s : Bytes) : belowRange appParams s [[]] = .ok
    ⟨⟨s, s ++ [0], false⟩, ⟨[[], []], [[0]], false⟩, ⟨0, 2, true⟩⟩ := rfl

theorem single_outside (s : Bytes) (t : UInt64) :
    isIncluded3d orderSubspace ⟨⟨s, s ++ [0], false⟩, ⟨[[], []], [[0]], false⟩, ⟨0, 2, true⟩⟩ ⟨s, [[]], t⟩ = false := by
  rw [Bool.eq_false_iff]
  intro h
  refine ((isIncluded3d_iff decides_subspace _ _).1 h).2.1.1 ?_
  rw [← decides_path.lt_iff]
  rfl

theorem single_prefix {q : Path} (hq : q <+: [[]]) (hne : q ≠ []) : ∃ x, successorPath q appParams = .ok x := by
  have : q = [[]] := by
    cases q with
    | nil => exact absurd rfl hne
    | cons a q =>
      obtain ⟨rfl, h⟩ := List.cons_prefix_cons.1 hq
      rw [List.prefix_nil.1 h]
  rw [this]
  exact ⟨_, rfl⟩

theorem forgedSubspace_length (s : Bytes) : (forgedSubspace s).length = 10656 + s.length := by
  unfold forgedSubspace
  rw [List.length_append, List.length_append, List.length_replicate, List.length_flatten, List.map_replicate, List.sum_replicate_nat]
  rfl

attribute [irreducible] emptyThenFull forgedSubspace

theorem emptyThenFull_ne : emptyThenFull 208 ≠ [] := by
  intro h
  have := congrArg List.length h
  rw [emptyThenFull_length] at this
  cases this

/-- The long path is stored in a subspace that has no entries. -/
theorem ingest_long (lib : KdLib) {st : StoreState} (hl : st.locked = false) {s d : Bytes} {n t c : UInt64} {refs : KV}
    (hkd : ∀ k ∈ st.kd, k.pos.subspace ≠ s) (hrefs : refIncrement st.refs d = .ok (c, refs)) :
    ingestEntry (appEnv lib) st ⟨[42], s, emptyThenFull 208, d, n, t⟩ s = .ok (some [], { st with
      kv := st.kv.set (encodeKey appParams ⟨s, emptyThenFull 208, t⟩) (encodeValues ⟨n, d, 1 :: s⟩)
      kd := st.kd ++ [⟨⟨s, emptyThenFull 208, t⟩, []⟩], refs := refs, files := st.files.set (1 :: s) s, locked := false }) :=
  ingest_fresh (env := appEnv lib) (e := ⟨[42], s, emptyThenFull 208, d, n, t⟩) hl (by simp [appEnv, testEnv])
    (by simp [appEnv, testEnv]) hkd emptyThenFull_ne (fun _ h1 h2 => emptyThenFull_prefix h1 h2) (belowRange_full257 s)
    (nothing_between _ _ _ _) (successorPrefixMutated_full257 _) hrefs

/-- So is the path with one empty component. -/
theorem ingest_single (lib : KdLib) {st : StoreState} (hl : st.locked = false) {s d : Bytes} {n t c : UInt64} {refs : KV}
    (hkd : ∀ k ∈ st.kd, k.pos.subspace ≠ s) (hrefs : refIncrement st.refs d = .ok (c, refs)) :
    ingestEntry (appEnv lib) st ⟨[42], s, [[]], d, n, t⟩ s = .ok (some [], { st with
      kv := st.kv.set (encodeKey appParams ⟨s, [[]], t⟩) (encodeValues ⟨n, d, 1 :: s⟩)
      kd := st.kd ++ [⟨⟨s, [[]], t⟩, []⟩], refs := refs, files := st.files.set (1 :: s) s, locked := false }) :=
  ingest_fresh (env := appEnv lib) (e := ⟨[42], s, [[]], d, n, t⟩) hl (by simp [appEnv, testEnv])
    (by simp [appEnv, testEnv]) hkd (by simp) (fun _ h1 h2 => single_prefix h1 h2) (belowRange_single s)
    (single_outside _ _) rfl hrefs

end Willow
