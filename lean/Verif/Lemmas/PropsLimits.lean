import Verif.Lemmas.Limits
import Verif.Lemmas.StoreRun
import Verif.Spec.Limits

/-! Lemmas for the theorems of `Verif/Props/Limits.lean`. -/

namespace Willow.Props

open Willow Spec

/-- An entry without payload. -/
def plainEntry (env : StoreEnv) (s : Bytes) (path : Path) (t : UInt64) : Entry := ⟨env.namespaceId, s, path, [], 0, t⟩

section
variable {env : StoreEnv} {st : StoreState} {s token : Bytes} {path : Path} {t : UInt64}
  (hns : env.nsEqual env.namespaceId env.namespaceId = true)
  (hauth : ∀ e : Entry, e.subspaceId = s → env.isAuthorised e token = true)

/-- The state in which `InsertEntry` looks for entries to prune. -/
def inserted (env : StoreEnv) (st : StoreState) (s token : Bytes) (path : Path) (t : UInt64) (refs : KV) : StoreState :=
  { st with
    locked := true, files := (payloadSet env st.files (env.tokenEncode token)).1,
    kv := st.kv.set (encodeKey env.p ⟨s, path, t⟩)
      (encodeValues ⟨0, [], (payloadSet env st.files (env.tokenEncode token)).2.1⟩),
    kd := corruptKey env.p (st.kd ++ [⟨⟨s, path, t⟩, []⟩]) ⟨s, path, t⟩, refs := refs }

include hns hauth

theorem ingest_crashes (hl : st.locked = false) {ps : List KdKey}
    (h1 : driverPrefixesOf env.lib env.p st.kd s path = .ok ps) (h2 : ∀ k ∈ ps, k.pos.time < t)
    (h3 : entryGet env { st with locked := true } s path = .crash) :
    ingestEntry env st (plainEntry env s path t) token = .crash := by
  show ingestEntry env st ⟨env.namespaceId, s, path, [], 0, t⟩ token = _
  unfold ingestEntry
  rw [if_neg (by simp [hl])]
  have hauth' : env.isAuthorised ⟨env.namespaceId, s, path, [], 0, t⟩ token = true := hauth _ rfl
  simp only [hns, hauth', Bool.not_true, Bool.false_eq_true, if_false, h1]
  rw [if_neg (by simpa using h2)]
  simp only [h3]

theorem ingest_prunes (hl : st.locked = false) {ps : List KdKey}
    (h1 : driverPrefixesOf env.lib env.p st.kd s path = .ok ps) (h2 : ∀ k ∈ ps, k.pos.time < t)
    (h3 : entryGet env { st with locked := true } s path = .ok .missing)
    (h4 : ∀ x ∈ st.kd, x.pos ≠ ⟨s, path, t⟩) {n : UInt64} {refs : KV} (h5 : refIncrement st.refs [] = .ok (n, refs)) :
    (prefixedBy env.lib env.p (inserted env st s token path t refs).kd s path = .crash →
      ingestEntry env st (plainEntry env s path t) token = .crash) ∧
    (prefixedBy env.lib env.p (inserted env st s token path t refs).kd s path = .ok [] →
      ingestEntry env st (plainEntry env s path t) token = .ok (some [], { inserted env st s token path t refs with locked := false })) := by
  have hauth' : env.isAuthorised ⟨env.namespaceId, s, path, [], 0, t⟩ token = true := hauth _ rfl
  have hk : kdAdd st.kd ⟨⟨s, path, t⟩, []⟩ = some (st.kd ++ [⟨⟨s, path, t⟩, []⟩]) := by
    unfold kdAdd
    rw [if_neg (by simpa using h4)]
  constructor <;> intro h6
  · show ingestEntry env st ⟨env.namespaceId, s, path, [], 0, t⟩ token = _
    unfold ingestEntry
    rw [if_neg (by simp [hl])]
    simp only [hns, hauth', Bool.not_true, Bool.false_eq_true, if_false, h1]
    rw [if_neg (by simpa using h2)]
    simp only [h3]
    unfold finishIngest insertEntry entryInsert
    simp only [Entry.position, hk, h5]
    unfold prunableEntries
    unfold inserted at h6
    dsimp only at h6 ⊢
    rw [h6]
    rfl
  · show ingestEntry env st ⟨env.namespaceId, s, path, [], 0, t⟩ token = _
    unfold ingestEntry
    rw [if_neg (by simp [hl])]
    simp only [hns, hauth', Bool.not_true, Bool.false_eq_true, if_false, h1]
    rw [if_neg (by simpa using h2)]
    simp only [h3]
    unfold finishIngest insertEntry entryInsert
    simp only [Entry.position, hk, h5]
    unfold prunableEntries
    unfold inserted at h6 ⊢
    dsimp only at h6 ⊢
    rw [h6]
    rfl

end

/-- A query for a range with nothing in it. -/
theorem query_nil (lib : KdLib) (kd : List KdKey) (r : Range3d) (h : ∀ k ∈ kd, ¬ InRange3d r k.pos) : lib.query kd r = [] := by
  rw [List.eq_nil_iff_forall_not_mem]
  intro k hk
  have h4 := (lib.perm _ _).mem_iff.1 hk
  rw [List.mem_filter] at h4
  exact h k h4.1 ((isIncluded3d_iff decides_subspace _ _).1 h4.2)

theorem runOps_one (env : StoreEnv) (st : StoreState) (e : Entry) (token : Bytes) (ops : List StoreOp) :
    runOps env st (.ingest e token :: ops) = (do let (_, st') ← ingestEntry env st e token; runOps env st' ops) := rfl

theorem specRun_plain {env : StoreEnv} {s token : Bytes} {path : Path} {t : UInt64}
    (hns : env.nsEqual env.namespaceId env.namespaceId = true)
    (hauth : ∀ e : Entry, e.subspaceId = s → env.isAuthorised e token = true) (A : List Item)
    (ha : Accepts A ⟨s, path, t⟩) :
    specRun env A [.ingest (plainEntry env s path t) token] = afterInsert A (newItem env (plainEntry env s path t) token) := by
  have hacc : Acceptable env A (plainEntry env s path t) token := ⟨hns, hauth _ rfl, ha⟩
  simp only [specRun, specStep, attempt]
  rw [if_pos hacc]

theorem corruptKey_id {p : PathParams} {path : Path} (h : successorPrefixMutated path p = path) (kd : List KdKey) (s : Bytes) (t : UInt64) :
    corruptKey p kd ⟨s, path, t⟩ = kd := by
  unfold corruptKey
  rw [h]
  conv => rhs; rw [← List.map_id kd]
  refine List.map_congr_left fun k _ => ?_
  split
  · rename_i hk
    cases k
    simp only at hk
    subst hk
    rfl
  · rfl

section
variable {env : StoreEnv} {s token : Bytes} {path : Path} {t : UInt64}
  (hns : env.nsEqual env.namespaceId env.namespaceId = true)
  (hauth : ∀ e : Entry, e.subspaceId = s → env.isAuthorised e token = true)

theorem prefixes_empty (hv : ValidPath env.p path) (hne : path ≠ []) : driverPrefixesOf env.lib env.p [] s path = .ok [] := by
  obtain ⟨ks, h1, h2⟩ := driverPrefixesOf_ok env.lib env.p [] s path hv hne
  rw [h1, h2.eq_nil]

theorem query_empty (lib : KdLib) (r : Range3d) : lib.query [] r = [] := query_nil lib [] r (by simp)

theorem runOps_crash {st : StoreState} (h : ingestEntry env st (plainEntry env s path t) token = .crash) :
    runOps env st [.ingest (plainEntry env s path t) token] = .crash := by
  rw [runOps_one, h]
  rfl

theorem not_faithful_of_crash {ops : List StoreOp} (h : runOps env .empty ops = .crash) : ¬ Faithful env ops := by
  rintro ⟨st, h1, _⟩
  rw [h] at h1
  cases h1

include hns hauth

/-- The empty path. -/
theorem ingest_root : ¬ Faithful env [.ingest (plainEntry env s [] t) token] := by
  refine not_faithful_of_crash ?_
  rw [runOps_one]
  show (do let (_, st') ← ingestEntry env StoreState.empty ⟨env.namespaceId, s, [], [], 0, t⟩ token; runOps env st' []) = _
  have hauth' : env.isAuthorised ⟨env.namespaceId, s, [], [], 0, t⟩ token = true := hauth _ rfl
  unfold ingestEntry
  rw [if_neg (by simp [StoreState.empty])]
  simp only [hns, hauth', Bool.not_true, Bool.false_eq_true, if_false]
  rfl

/-- First call, the lookup fails. -/
theorem first_lookup_crashes (hv : ValidPath env.p path) (hne : path ≠ []) (h : pointRange env.p s path = .crash) :
    ¬ Faithful env [.ingest (plainEntry env s path t) token] := by
  refine not_faithful_of_crash (runOps_crash (ingest_crashes hns hauth rfl (prefixes_empty hv hne) (by simp) ?_))
  unfold entryGet storageGet
  rw [h]
  rfl

/-- First call, the lookup succeeds. -/
theorem first_ingest (hv : ValidPath env.p path) (hne : path ≠ []) {r : Range3d} (h : pointRange env.p s path = .ok r) :
    ∃ refs, (belowRange env.p s path = .crash → ¬ Faithful env [.ingest (plainEntry env s path t) token]) ∧
      (∀ r, belowRange env.p s path = .ok r → ¬ InRange3d r ⟨s, successorPrefixMutated path env.p, t⟩ →
        runOps env .empty [.ingest (plainEntry env s path t) token] =
          .ok { inserted env .empty s token path t refs with locked := false }) := by
  obtain ⟨n, refs, h5, _⟩ := (abs_empty env).refs.increment ⟨⟨s, path, t⟩, ⟨0, [], []⟩⟩
  have h3 : entryGet env { StoreState.empty with locked := true } s path = .ok .missing := by
    unfold entryGet storageGet
    rw [h]
    simp only [Res.ok_bind, StoreState.empty, query_empty]
  have h6 := ingest_prunes (st := .empty) hns hauth rfl (prefixes_empty hv hne) (by simp) h3 (t := t) (by simp [StoreState.empty]) h5
  refine ⟨refs, fun hb => ?_, fun r hb hn => ?_⟩
  · refine not_faithful_of_crash (runOps_crash (h6.1 ?_))
    unfold prefixedBy
    rw [hb]
    rfl
  · rw [runOps_one, h6.2]
    · rfl
    · unfold prefixedBy
      rw [hb]
      simp only [Res.ok_bind, inserted, StoreState.empty, List.nil_append, corruptKey, List.map_cons, List.map_nil, if_true]
      rw [query_nil]
      simpa using hn

end

end Willow.Props
