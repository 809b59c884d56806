import Verif.Lemmas.PropsStore
import Verif.Lemmas.StoreRun
import Verif.Props.Listing

/-! Properties of the store under sequences of calls (C44, C45, C47, C48, C50, C51, C53–C57).
"Fine" calls are those whose paths are comfortable (`Verif/Spec/Store.lean`): a byte can be
added to the last component, largest components at the end left out. "Paths at a limit" are the
other non-empty ones; the violations use such paths. -/

namespace Willow.Props

open Willow Spec

/-- The example configuration with the limits of the application. -/
def appEnv (lib : KdLib) : StoreEnv := { testEnv lib with p := appParams }

/-! ## C44 -/

/-- C44, partial: after any fine calls the tree and the database each have at most one entry per
subspace and path. Missing: the empty path, paths at a limit (see `C44_violated`). -/
theorem C44_onePerPath_partial (env : StoreEnv) (he : EnvOk env) (ops : List StoreOp) (hf : ∀ op ∈ ops, FineOp env op) :
    ∃ st, runOps env .empty ops = .ok st ∧
      st.kd.Pairwise (fun a b => ¬ (a.pos.subspace = b.pos.subspace ∧ a.pos.path = b.pos.path)) ∧
      ∀ a b : Position, ValidPath env.p a.path → ValidPath env.p b.path →
        st.kv.get (encodeKey env.p a) ≠ none → st.kv.get (encodeKey env.p b) ≠ none →
        a.subspace = b.subspace → a.path = b.path → a = b := by
  obtain ⟨st, h1, h2, _⟩ := run_ok he ops hf
  refine ⟨st, h1, ?_, fun a b ha hb hga hgb hs hp => ?_⟩
  · have hpos : (((specRun env [] ops).map (·.pos)).Pairwise fun a b : Position => ¬ (a.subspace = b.subspace ∧ a.path = b.path)) := by
      rw [List.pairwise_map]; exact h2.core.apart
    have := h2.core.kd_perm.symm.pairwise hpos fun {x y} h hc => h ⟨hc.1.symm, hc.2.symm⟩
    rwa [List.pairwise_map] at this
  · obtain ⟨x, hx⟩ := Option.ne_none_iff_exists'.1 hga
    obtain ⟨y, hy⟩ := Option.ne_none_iff_exists'.1 hgb
    obtain ⟨i, hi, hip, _⟩ := h2.core.of_get he ha hx
    obtain ⟨j, hj, hjp, _⟩ := h2.core.of_get he hb hy
    have := apart_unique h2.core.apart hi hj (by rw [hip, hjp, hs]) (by rw [hip, hjp, hp])
    rw [← hip, ← hjp, this]

example : EnvOk cutEnv ∧ (∀ op ∈ exampleOps, FineOp cutEnv op) ∧ 2 < exampleOps.length := ⟨cutEnv_ok, example_fine, by decide⟩

/-- C44 is violated with the limits of the application: writing twice to a path with a
component of 50 bytes leaves two entries at the path in the database. -/
theorem C44_violated : ∃ (lib : KdLib) (path : Path) (st : StoreState), ValidPath appParams path ∧
    runOps (appEnv lib) .empty [put path 5 [9], put path 6 [8]] = .ok st ∧
    st.kv.get (encodeKey appParams ⟨[7], path, 5⟩) ≠ none ∧ st.kv.get (encodeKey appParams ⟨[7], path, 6⟩) ≠ none := by
  refine ⟨listLib, [List.replicate 50 1], _, ⟨by decide, by decide, by decide⟩, rfl, ?_, ?_⟩ <;> decide +kernel

example : EnvOk cutEnv ∧ (∀ op ∈ exampleOps, FineOp cutEnv op) := ⟨cutEnv_ok, example_fine⟩

/-! ## C45 -/

/-- C45, partial: after any fine calls no entry (in the tree or in the database) lies strictly
below a strictly newer one of the same subspace. Missing: the empty path, paths at a limit (see
`C45_violated`). -/
theorem C45_pruned_partial (env : StoreEnv) (he : EnvOk env) (ops : List StoreOp) (hf : ∀ op ∈ ops, FineOp env op) :
    ∃ st, runOps env .empty ops = .ok st ∧
      (∀ a ∈ st.kd, ∀ b ∈ st.kd, a.pos.subspace = b.pos.subspace → a.pos.path <+: b.pos.path → a.pos.path ≠ b.pos.path →
        ¬ b.pos.time < a.pos.time) ∧
      ∀ a b : Position, ValidPath env.p a.path → ValidPath env.p b.path →
        st.kv.get (encodeKey env.p a) ≠ none → st.kv.get (encodeKey env.p b) ≠ none →
        a.subspace = b.subspace → a.path <+: b.path → a.path ≠ b.path → ¬ b.time < a.time := by
  obtain ⟨st, h1, h2, _⟩ := run_ok he ops hf
  have hpc : PruningComplete (specRun env [] ops) := pruningComplete_specRun env ops [] fun a ha => by simp at ha
  refine ⟨st, h1, fun a ha b hb => ?_, fun a b ha hb hga hgb => ?_⟩
  · obtain ⟨i, hi, hip⟩ := h2.core.mem_kd ha
    obtain ⟨j, hj, hjp⟩ := h2.core.mem_kd hb
    rw [← hip, ← hjp]
    exact hpc i hi j hj
  · obtain ⟨x, hx⟩ := Option.ne_none_iff_exists'.1 hga
    obtain ⟨y, hy⟩ := Option.ne_none_iff_exists'.1 hgb
    obtain ⟨i, hi, hip, _⟩ := h2.core.of_get he ha hx
    obtain ⟨j, hj, hjp, _⟩ := h2.core.of_get he hb hy
    rw [← hip, ← hjp]
    exact hpc i hi j hj

/-- C45 is violated: a newer entry at a path whose component has the maximal length does not
prune the entry below it. -/
theorem C45_violated : ∃ (lib : KdLib) (path : Path) (st : StoreState), ValidPath tinyParams path ∧
    runOps (testEnv lib) .empty [put (path ++ [[9]]) 5 [9], put path 6 [8]] = .ok st ∧
    st.kv.get (encodeKey tinyParams ⟨[7], path ++ [[9]], 5⟩) ≠ none ∧ st.kv.get (encodeKey tinyParams ⟨[7], path, 6⟩) ≠ none := by
  refine ⟨listLib, [[1, 2, 3]], _, ⟨by decide, by decide, by decide⟩, rfl, ?_, ?_⟩ <;> decide +kernel

example : ∃ st, runOps cutEnv .empty exampleOps = .ok st ∧ st.kd.map (·.pos) = [⟨[7], [[3]], 6⟩, ⟨[7], [[1]], 7⟩] :=
  ⟨_, rfl, by decide +kernel⟩

/-! ## C47 -/

/-- C47, partial: on a store reached by fine calls, an accepted fine entry is stored with its
digest, length and token digest, exactly the entries it replaces or prunes disappear, and the
pruned ones are returned. Missing: the empty path, paths at a limit (see `C47_violated_limits`). -/
theorem C47_ingest_partial (env : StoreEnv) (he : EnvOk env) (ops : List StoreOp) (hf : ∀ op ∈ ops, FineOp env op)
    (st : StoreState) (hrun : runOps env .empty ops = .ok st) (e : Entry) (token : Bytes) (hfe : FineOp env (.ingest e token))
    (r : List Entry) (st' : StoreState) (h : ingestEntry env st e token = .ok (some r, st')) :
    (∀ a : Item, Proper env.p a → (Holds env st' a.pos a.val ↔
      a = newItem env e token ∨ (Holds env st a.pos a.val ∧ ¬ Displaces e.position a.pos))) ∧
    (∀ x, x ∈ r ↔ ∃ a : Item, Proper env.p a ∧ Holds env st a.pos a.val ∧ Prunes e.position a.pos ∧ x = a.entry env.namespaceId) := by
  obtain ⟨st0, h1, h2, h3⟩ := run_ok he ops hf
  rw [hrun] at h1
  cases h1
  obtain ⟨hc, hd⟩ := hfe e token rfl
  obtain ⟨r', st1, e1, e2, e3, e4⟩ := ingest_ok he h2 h3 e token hc hd
  rw [h] at e1
  cases e1
  have hat : attempt env (.ingest e token) = some (e, token) := rfl
  unfold ResultOk at e4
  unfold specStep at e2
  rw [hat] at e2 e4
  dsimp only at e2 e4
  by_cases hacc : Acceptable env (specRun env [] ops) e token
  · rw [if_pos hacc] at e2 e4
    obtain ⟨B, hB, hperm⟩ := e4
    cases hB
    constructor
    · intro a ha
      rw [e2.holds he ha, h2.holds he ha]
      unfold afterInsert
      rw [List.mem_cons, List.mem_filter]
      simp only [decide_eq_true_eq]
      exact Iff.rfl
    · intro x
      rw [List.mem_map]
      simp only [hperm.mem_iff, List.mem_filter, decide_eq_true_eq]
      constructor
      · rintro ⟨a, ⟨ha, hp⟩, rfl⟩
        have hpr := (h2.core.fine a ha).proper
        exact ⟨a, hpr, (h2.holds he hpr).2 ha, hp, rfl⟩
      · rintro ⟨a, hpr, ha, hp, rfl⟩
        exact ⟨a, ⟨(h2.holds he hpr).1 ha, hp⟩, rfl⟩
  · rw [if_neg hacc] at e4
    cases e4

example : ∃ st st' r, runOps cutEnv .empty [put [[1], [2]] 5 [9]] = .ok st ∧
    ingestEntry cutEnv st ⟨[42], [7], [[1]], [1, 4], 1, 6⟩ [7] = .ok (some r, st') :=
  ⟨_, _, _, rfl, rfl⟩

/-! ## C48 -/

/-- C48, partial: on a store reached by fine calls, a fine entry is refused, and nothing changes,
when an entry of the subspace at the same path or at a prefix has an equal or newer timestamp.
Missing: the empty path, paths at a limit (see `C48_violated`). -/
theorem C48_newer_partial (env : StoreEnv) (he : EnvOk env) (ops : List StoreOp) (hf : ∀ op ∈ ops, FineOp env op)
    (st : StoreState) (hrun : runOps env .empty ops = .ok st) (e : Entry) (token : Bytes) (hfe : FineOp env (.ingest e token))
    (a : Item) (hpr : Proper env.p a) (ha : Holds env st a.pos a.val) (hs : a.pos.subspace = e.subspaceId)
    (hp : a.pos.path <+: e.path) (ht : e.timestamp ≤ a.pos.time) :
    ingestEntry env st e token = .ok (none, st) := by
  obtain ⟨st0, h1, h2, h3⟩ := run_ok he ops hf
  rw [hrun] at h1
  cases h1
  obtain ⟨hc, hd⟩ := hfe e token rfl
  refine ingestEntry_refused h2.core h3 e token hc fun hacc => ?_
  have := hacc.2.2 a ((h2.holds he hpr).1 ha) hs hp
  exact absurd this (UInt64.not_lt.2 ht)

/-- C48 is violated with the limits of the application: an older write to a path with a
component of 50 bytes is accepted. -/
theorem C48_violated : ∃ (lib : KdLib) (path : Path) (st st' : StoreState) (e : Entry) (r : List Entry),
    runOps (appEnv lib) .empty [put path 6 [9]] = .ok st ∧ e.path = path ∧ e.timestamp = 5 ∧ e.subspaceId = [7] ∧
    ingestEntry (appEnv lib) st e [7] = .ok (some r, st') :=
  ⟨listLib, [List.replicate 50 1], _, _, ⟨[42], [7], [List.replicate 50 1], [1, 4], 1, 5⟩, _, rfl, rfl, rfl, rfl, rfl⟩

example : ∃ st, runOps cutEnv .empty [put [[1]] 5 [9]] = .ok st ∧ Holds cutEnv st ⟨[7], [[1]], 5⟩ ⟨1, [1, 9], [1, 7]⟩ ∧
    Proper cutEnv.p ⟨⟨[7], [[1]], 5⟩, ⟨1, [1, 9], [1, 7]⟩⟩ := by
  refine ⟨_, rfl, ⟨by decide +kernel, ⟨⟨⟨[7], [[1]], 5⟩, []⟩, by decide +kernel, rfl⟩⟩, ⟨⟨by decide, by decide, by decide⟩, by decide, by decide⟩⟩

/-! ## C50 -/

/-- C50, partial: after any fine calls the keys of the database are exactly the encoded positions
of the tree, each once. Missing: the empty path, paths at a limit (see `C50_violated`). -/
theorem C50_sameEntries_partial (env : StoreEnv) (he : EnvOk env) (ops : List StoreOp) (hf : ∀ op ∈ ops, FineOp env op) :
    ∃ st, runOps env .empty ops = .ok st ∧ (st.kv.map (·.1)).Perm (st.kd.map fun k => encodeKey env.p k.pos) := by
  obtain ⟨st, h1, h2, _⟩ := run_ok he ops hf
  refine ⟨st, h1, ?_⟩
  have hk := h2.core.kv_perm.map (·.1)
  have hd := h2.core.kd_perm.map (encodeKey env.p)
  rw [List.map_map] at hk hd
  refine hk.trans (List.Perm.trans ?_ hd.symm)
  rw [List.map_map]
  exact List.Perm.refl _

example : EnvOk cutEnv ∧ (∀ op ∈ exampleOps, FineOp cutEnv op) ∧
    ∃ st, runOps cutEnv .empty exampleOps = .ok st ∧ st.kv.length = 2 ∧ st.kd.length = 2 :=
  ⟨cutEnv_ok, example_fine, _, rfl, by decide +kernel, by decide +kernel⟩

/-- C50 is violated with the limits of the application: after one write to a path with a
component of 50 bytes the tree holds another path than the database. -/
theorem C50_violated : ∃ (lib : KdLib) (path : Path) (st : StoreState), ValidPath appParams path ∧
    runOps (appEnv lib) .empty [put path 5 [9]] = .ok st ∧
    st.kv.map (·.1) = [encodeKey appParams ⟨[7], path, 5⟩] ∧ ∀ k ∈ st.kd, encodeKey appParams k.pos ∉ st.kv.map (·.1) := by
  refine ⟨listLib, [List.replicate 50 1], _, ⟨by decide, by decide, by decide⟩, rfl, ?_, ?_⟩ <;> decide +kernel

/-! ## C51 -/

/-- C51, partial: after any fine calls the database stands for a list of items, and the count of
every payload digest is the number of items with the digest plus the number of times an entry
was replaced by one with the same payload (modulo 2^64). Missing: that surplus (see
`C51_violated`), the empty path, and paths at a limit. -/
theorem C51_counts_partial (env : StoreEnv) (he : EnvOk env) (ops : List StoreOp) (hf : ∀ op ∈ ops, FineOp env op) :
    ∃ st items, runOps env .empty ops = .ok st ∧
      st.kv.Perm (items.map fun a => (encodeKey env.p a.pos, encodeValues a.val)) ∧
      ∀ d, let n := howMany (fun a : Item => a.val.payloadDigest = d) items + rewrites env [] ops d
        refCount st.refs d = .ok (UInt64.ofNat n) ∨ (n = 0 ∧ refCount st.refs d = .err) := by
  obtain ⟨st, h1, h2, _⟩ := run_ok he ops hf
  refine ⟨st, specRun env [] ops, h1, h2.core.kv_perm, fun d => ?_⟩
  have hr := h2.refs d
  rw [leakRun_eq ops [] _ List.Pairwise.nil d, Nat.zero_add] at hr
  have hcount : howMany (fun a : Item => a.val.payloadDigest = d) (specRun env [] ops) = refsTo (specRun env [] ops) d := by
    rw [howMany_eq _ (fun a => decide (a.val.payloadDigest = d)) _ (fun a _ => by rw [decide_eq_true_eq])]
    unfold refsTo
    rw [List.countP_eq_length_filter]
  dsimp only
  rw [hcount]
  unfold refCount
  rcases hr with ⟨h3, h4, h5⟩ | h3
  · rw [h3]
    exact .inr ⟨by omega, rfl⟩
  · rw [h3]
    exact .inl (bigEndianUint64_putU64 _)

/-- C51 is violated by every payload with which an entry was replaced by one with the same payload: whatever fine calls
are made, its count is not the number of items with it. -/
theorem C51_violated_always (env : StoreEnv) (he : EnvOk env) (ops : List StoreOp) (hf : ∀ op ∈ ops, FineOp env op) (d : Bytes)
    (hd : 0 < rewrites env [] ops d) (hd' : rewrites env [] ops d < 2 ^ 64) :
    ∃ st items, runOps env .empty ops = .ok st ∧
      st.kv.Perm (items.map fun a => (encodeKey env.p a.pos, encodeValues a.val)) ∧
      refCount st.refs d ≠ .ok (UInt64.ofNat (howMany (fun a : Item => a.val.payloadDigest = d) items)) := by
  obtain ⟨st, items, h1, h2, h3⟩ := C51_counts_partial env he ops hf
  refine ⟨st, items, h1, h2, fun hc => ?_⟩
  rcases h3 d with h3 | ⟨-, h3⟩ <;> rw [hc] at h3
  · have := congrArg UInt64.toNat (Res.ok.inj h3)
    simp only [UInt64.toNat_ofNat'] at this
    omega
  · cases h3

example : (∀ op ∈ [put [[1]] 5 [9], put [[1]] 6 [9]], FineOp cutEnv op) ∧
    rewrites cutEnv [] [put [[1]] 5 [9], put [[1]] 6 [9]] [1, 9] = 1 := by
  refine ⟨?_, ?_⟩
  rotate_left
  · have h : Rewrites cutEnv (specStep cutEnv [] (put [[1]] 5 [9])) (put [[1]] 6 [9]) [1, 9] :=
      ⟨⟨[42], [7], [[1]], [1, 9], 1, 6⟩, [7], rfl, by decide +kernel, rfl, newItem cutEnv ⟨[42], [7], [[1]], [1, 9], 1, 5⟩ [7],
        by decide +kernel, rfl, rfl, rfl⟩
    have h0 : ¬ Rewrites cutEnv [] (put [[1]] 5 [9]) [1, 9] := by
      rintro ⟨_, _, _, _, _, a, ha, _⟩
      cases ha
    simp only [rewrites]
    rw [if_pos h, if_neg h0]
  intro op h
  simp only [List.mem_cons, List.not_mem_nil, or_false] at h
  rcases h with rfl | rfl <;> exact cut_fine _ _ _ (cut_comfortable _ ⟨by decide, by decide, by decide⟩ (by decide) (by decide) (by decide))

/-- C51 is violated: after an entry is overwritten with the same payload and then with another,
no entry refers to the first payload but its count is one, and its file stays. -/
theorem C51_violated : ∃ (lib : KdLib) (st : StoreState),
    runOps (testEnv lib) .empty [put [[1]] 5 [9], put [[1]] 6 [9], put [[1]] 7 [8]] = .ok st ∧
    st.kv = [(encodeKey tinyParams ⟨[7], [[1]], 7⟩, encodeValues ⟨1, [1, 8], [1, 7]⟩)] ∧
    refCount st.refs [1, 9] = .ok 1 ∧ payloadGet (testEnv lib) st.files [1, 9] = some [9] := by
  refine ⟨listLib, _, rfl, ?_, ?_, ?_⟩ <;> decide +kernel

/-! ## C53 -/

/-- C53 is violated on every store: supplying a payload for a stored entry always fails. -/
theorem C53_violated (env : StoreEnv) (st : StoreState) (pos : Position) (v : Values)
    (h : st.kv.get (encodeKey env.p pos) = some (encodeValues v)) (payload : Bytes) (allowPartial : Bool) (offset : Nat) :
    ingestPayload env st pos payload allowPartial offset = .ok (none, st) := by
  unfold ingestPayload
  rw [h]
  dsimp only
  rw [if_pos]
  intro hc
  have := congrArg List.length hc
  simp [encodeValues, bigIntToBytes, putU64_eq, beBytes_length] at this

/-- C53, partial: a failed attempt at least changes nothing, whatever the store holds. Missing:
the property itself. -/
theorem C53_unchanged_partial (env : StoreEnv) (st st' : StoreState) (pos : Position) (payload : Bytes) (allowPartial : Bool)
    (offset : Nat) (r : Option Unit) (h : ingestPayload env st pos payload allowPartial offset = .ok (r, st')) :
    r = none ∧ st' = st := by
  unfold ingestPayload at h
  split at h
  · cases h; exact ⟨rfl, rfl⟩
  · split at h
    · cases h; exact ⟨rfl, rfl⟩
    · cases h

example : ∃ st, runOps cutEnv .empty [put [[1]] 5 [9]] = .ok st ∧
    st.kv.get (encodeKey cutEnv.p ⟨[7], [[1]], 5⟩) = some (encodeValues ⟨1, [1, 9], [1, 7]⟩) := ⟨_, rfl, by decide +kernel⟩

/-! ## C54 -/

/-- C54, partial: after any fine calls the lock is free, and every further fine call returns with
the lock free. Missing: the empty path, paths at a limit (see `C54_violated`). -/
theorem C54_lock_partial (env : StoreEnv) (he : EnvOk env) (ops : List StoreOp) (hf : ∀ op ∈ ops, FineOp env op) (op : StoreOp)
    (hop : FineOp env op) :
    ∃ st r st', runOps env .empty ops = .ok st ∧ st.locked = false ∧ runOp env st op = .ok (r, st') ∧ st'.locked = false := by
  obtain ⟨st, h1, h2, h3⟩ := run_ok he ops hf
  obtain ⟨r, st', h4, _, h5, _⟩ := runOp_ok he h2 h3 op hop
  exact ⟨st, r, st', h1, h3, h4, h5⟩

example : EnvOk cutEnv ∧ (∀ op ∈ exampleOps, FineOp cutEnv op) ∧ FineOp cutEnv (put [[1]] 6 [3]) ∧
    (do
      let st ← runOps cutEnv .empty exampleOps
      let (_, st') ← runOp cutEnv st (put [[1]] 6 [3])
      Res.ok (st.locked, st'.locked)) = Res.ok (false, false) :=
  ⟨cutEnv_ok, example_fine, cut_fine _ _ _ (cut_comfortable _ ⟨by decide, by decide, by decide⟩ (by decide) (by decide) (by decide)), by decide +kernel⟩

/-- C54 is violated with the limits of the application: the second write returns an error with
the lock held, and the third waits forever. -/
theorem C54_violated : ∃ (lib : KdLib) (a b : Path) (st : StoreState), ValidPath appParams a ∧ ValidPath appParams b ∧
    runOps (appEnv lib) .empty [put a 5 [9], put b 6 [8]] = .ok st ∧ st.locked = true ∧
    ∀ op, (∃ e t, op = .ingest e t) → runOp (appEnv lib) st op = .block := by
  refine ⟨listLib, [List.replicate 50 1], [List.replicate 49 1 ++ [2]], _, ⟨by decide, by decide, by decide⟩,
    ⟨by decide, by decide, by decide⟩, rfl, rfl, ?_⟩
  rintro op ⟨e, t, rfl⟩
  rfl

/-! ## C55 -/

/-- C55, partial: after an accepted fine write and any later fine calls without a newer write at the path or
at a prefix of it in the subspace, the lookup returns the written entry with the digest and
length of the bytes written. Missing: the empty path, paths at a limit (see `C55_violated`). -/
theorem C55_readBack_partial (env : StoreEnv) (he : EnvOk env) (before later : List StoreOp) (now : UInt64) (input : EntryInput)
    (authorisation : Bytes) (hf : ∀ op ∈ before ++ .set now input authorisation :: later, FineOp env op)
    (st st1 : StoreState) (r : List Entry) (hrun : runOps env .empty before = .ok st)
    (hset : storeSet env st now input authorisation = .ok (some r, st1))
    (hno : ∀ op ∈ later, ∀ e token, attempt env op = some (e, token) → e.subspaceId = input.subspace → e.path <+: input.path →
      e.timestamp ≤ if input.timestamp = 0 then now else input.timestamp) :
    ∃ st2 authDigest, runOps env st1 later = .ok st2 ∧
      entryGet env st2 input.subspace input.path = .ok (.found
        { namespaceId := env.namespaceId, subspaceId := input.subspace, path := input.path,
          payloadDigest := env.hash input.payload, payloadLength := UInt64.ofNat input.payload.length,
          timestamp := if input.timestamp = 0 then now else input.timestamp } authDigest) := by
  obtain ⟨st0, h1, h2, h3⟩ := run_ok he before fun op ho => hf op (List.mem_append_left _ ho)
  rw [hrun] at h1
  cases h1
  have hfset := hf (.set now input authorisation) (List.mem_append_right _ List.mem_cons_self)
  obtain ⟨r', st1', e1, e2, e3, e4⟩ := runOp_ok he h2 h3 (.set now input authorisation) hfset
  have e1' : storeSet env st now input authorisation = .ok (r', st1') := e1
  rw [hset] at e1'
  cases e1'
  obtain ⟨st2, f1, f2, f3⟩ := runOps_ok he later st1 _ _ e2 e3 fun op ho => hf op (by simp [ho])
  -- the write was accepted
  cases hat : attempt env (.set now input authorisation) with
  | none =>
    unfold ResultOk at e4
    rw [hat] at e4
    simp at e4
  | some et =>
    obtain ⟨e, token⟩ := et
    have hcomf := (hfset e token hat).1
    unfold ResultOk at e4
    rw [hat] at e4
    dsimp only at e4
    have hacc : Acceptable env (specRun env [] before) e token := by
      by_cases hacc : Acceptable env (specRun env [] before) e token
      · exact hacc
      · rw [if_neg hacc] at e4; cases e4
    have hmem : newItem env e token ∈ specStep env (specRun env [] before) (.set now input authorisation) := by
      unfold specStep
      rw [hat]
      dsimp only
      rw [if_pos hacc]
      exact List.mem_cons_self
    have he' : e = ⟨env.namespaceId, input.subspace, input.path, env.hash input.payload, UInt64.ofNat input.payload.length,
        if input.timestamp = 0 then now else input.timestamp⟩ := by
      simp only [attempt, Option.map_eq_some_iff, Prod.mk.injEq] at hat
      obtain ⟨_, _, h, _⟩ := hat
      exact h.symm
    have hstay := stays_specRun later _ hmem (by
      intro op ho e2 t2 ha
      have := hno op ho e2 t2 ha
      rw [he']
      exact this)
    have hpath : e.path = input.path := by rw [he']
    rw [hpath] at hcomf
    rcases f2.core.entryGet input.subspace input.path hcomf.valid (.inr hcomf) with ⟨_, g⟩ | ⟨a, ha, g1, g2, g3⟩
    · exact absurd ⟨show e.subspaceId = _ by rw [he'], hpath⟩ (g _ hstay)
    · have hae : a = newItem env e token := apart_unique f2.core.apart ha hstay
        (g1.trans (show input.subspace = e.subspaceId by rw [he'])) (g2.trans hpath.symm)
      refine ⟨st2, a.val.authDigest, f1, ?_⟩
      rw [g3, hae, he']
      rfl

/-- C55 is violated with the limits of the application: an entry just written to a path with a
component of 50 bytes is not found. -/
theorem C55_violated : ∃ (lib : KdLib) (path : Path) (st : StoreState) (r : List Entry), ValidPath appParams path ∧
    storeSet (appEnv lib) .empty 0 ⟨[7], path, 5, [9]⟩ [7] = .ok (some r, st) ∧
    entryGet (appEnv lib) st [7] path = .ok .missing := by
  refine ⟨listLib, [List.replicate 50 1], _, _, ⟨by decide, by decide, by decide⟩, rfl, ?_⟩
  decide +kernel

example : ∃ st st1 r, runOps cutEnv .empty [put [[1], [2]] 5 [9]] = .ok st ∧
    storeSet cutEnv st 0 ⟨[7], [[1]], 6, [8]⟩ [7] = .ok (some r, st1) ∧
    (∀ op ∈ [put [[3]] 9 [9], put [[1], [2]] 9 [9]], ∀ e token, attempt cutEnv op = some (e, token) → e.subspaceId = [7] →
      e.path <+: [[1]] → e.timestamp ≤ 6) := by
  refine ⟨_, _, _, rfl, rfl, ?_⟩
  simp only [List.forall_mem_cons, List.not_mem_nil, false_implies, implies_true, and_true]
  refine ⟨fun e t h _ hp => ?_, fun e t h _ hp => ?_⟩ <;>
  · simp only [put, attempt, cutEnv, testEnv, Option.map_some, Option.some.injEq, Prod.mk.injEq] at h
    obtain ⟨rfl, _⟩ := h
    exact absurd hp (by decide)

/-! ## C56 -/

/-- C56, partial: if the listed keys keep their contents, restarting after any fine calls
succeeds, keeps the database, and the new tree holds the same positions as the old one. Missing:
the code keeps key slices that the iterator may overwrite (see `C56_violated`). -/
theorem C56_restart_partial (env : StoreEnv) (he : EnvOk env) (ops : List StoreOp) (hf : ∀ op ∈ ops, FineOp env op) :
    ∃ st st', runOps env .empty ops = .ok st ∧ restart env (fun kv => kv) st = .ok st' ∧ st'.kv = st.kv ∧
      st'.refs = st.refs ∧ st'.files = st.files ∧ st'.locked = false ∧ (st'.kd.map (·.pos)).Perm (st.kd.map (·.pos)) := by
  obtain ⟨st, h1, h2, _⟩ := run_ok he ops hf
  obtain ⟨L, h3, h4, h5⟩ := restart_ok he h2
  exact ⟨st, _, h1, h4, rfl, rfl, rfl, rfl, h5.core.kd_perm.trans h2.core.kd_perm.symm⟩

example : EnvOk cutEnv ∧ (∀ op ∈ exampleOps, FineOp cutEnv op) ∧
    (do
      let st ← runOps cutEnv .empty exampleOps
      let st' ← restart cutEnv (fun kv => kv) st
      Res.ok (st'.kd.map (·.pos), st'.locked)) = Res.ok ([⟨[7], [[3]], 6⟩, ⟨[7], [[1]], 7⟩], false) :=
  ⟨cutEnv_ok, example_fine, by decide +kernel⟩

/-- C56 is violated if the iterator reuses its buffer for the key, as pebble is allowed to: then
every listed key is the last one. -/
theorem C56_violated : ∃ (lib : KdLib) (st st' : StoreState),
    runOps (testEnv lib) .empty [put [[1]] 5 [9], put [[2]] 6 [9]] = .ok st ∧
    restart (testEnv lib) (fun kv => kv.map fun e => ((kv.getLast?.getD e).1, e.2)) st = .ok st' ∧
    ¬ (st'.kd.map (·.pos)).Perm (st.kd.map (·.pos)) := by
  refine ⟨listLib, _, _, rfl, rfl, ?_⟩
  intro hp
  have : (⟨[7], [[1]], 5⟩ : Position) ∈ _ := hp.mem_iff.2 (by decide +kernel : (⟨[7], [[1]], 5⟩ : Position) ∈ _)
  revert this
  decide +kernel

/-! ## C57 -/

/-- C57 is violated: a range summary that worked before restarting ends the process after it. -/
theorem C57_violated : ∃ (lib : KdLib) (st st' : StoreState) (r : Range3d),
    runOps (testEnv lib) .empty [put [[1]] 5 [9]] = .ok st ∧ restart (testEnv lib) (fun kv => kv) st = .ok st' ∧
    summarise lib st.kd r = .ok ([], 1) ∧ summarise lib st'.kd r = .crash := by
  refine ⟨listLib, _, _, ⟨⟨[7], [], true⟩, ⟨[], [], true⟩, ⟨0, 0, true⟩⟩, rfl, rfl, ?_, ?_⟩ <;> decide +kernel

/-- C57, partial: after any fine calls and a restart, with a digest that is never empty, the
summary of a range without entries is the same as before; for every other range it ends the
process. Missing: ranges with entries. -/
theorem C57_summary_partial (env : StoreEnv) (he : EnvOk env) (hne : ∀ b, env.hash b ≠ []) (ops : List StoreOp)
    (hf : ∀ op ∈ ops, FineOp env op) (r : Range3d) :
    ∃ st st', runOps env .empty ops = .ok st ∧ restart env (fun kv => kv) st = .ok st' ∧
      ((∀ k ∈ st.kd, ¬ InRange3d r k.pos) → summarise env.lib st'.kd r = .ok ([], 0) ∧ summarise env.lib st.kd r = .ok ([], 0)) ∧
      ((∃ k ∈ st.kd, InRange3d r k.pos) → summarise env.lib st'.kd r = .crash) := by
  obtain ⟨st, h1, h2, _⟩ := run_ok he ops hf
  obtain ⟨L, h3, h4, h5⟩ := restart_ok he h2
  refine ⟨st, _, h1, h4, fun hno => ?_, fun ⟨k, hk, hin⟩ => ?_⟩
  · have hno' : ∀ k ∈ L.map fun a : Item => (⟨a.pos, a.val.authDigest⟩ : KdKey), ¬ InRange3d r k.pos := by
      intro k hk hin
      obtain ⟨a, ha, rfl⟩ := List.mem_map.1 hk
      obtain ⟨k', hk', e⟩ := h2.core.in_kd (h3.mem_iff.1 ha)
      exact hno k' hk' (by rw [e]; exact hin)
    have hq : ∀ kd : List KdKey, (∀ k ∈ kd, ¬ InRange3d r k.pos) → summarise env.lib kd r = .ok ([], 0) := by
      intro kd hkd
      unfold summarise
      have : env.lib.query kd r = [] := by
        refine List.eq_nil_iff_forall_not_mem.2 fun k hk => ?_
        have := (env.lib.mem_query kd r k).1 hk
        exact hkd k this.1 this.2
      rw [this]
      rfl
    exact ⟨hq _ hno', hq _ hno⟩
  · obtain ⟨a, ha, e⟩ := h2.core.mem_kd hk
    refine C36_violated_crash env.lib _ r ⟨a.pos, a.val.authDigest⟩ (List.mem_map.2 ⟨a, h3.mem_iff.2 ha, rfl⟩)
      (by rw [← e] at hin; exact hin) ?_
    obtain ⟨t, ht⟩ := authDigest_specRun env ops [] (fun a ha => by simp at ha) a ha
    rw [ht]
    exact hne t

example : EnvOk cutEnv ∧ (∀ b, cutEnv.hash b ≠ []) ∧ (∀ op ∈ exampleOps, FineOp cutEnv op) :=
  ⟨cutEnv_ok, fun b h => by simp [cutEnv] at h, example_fine⟩

end Willow.Props
