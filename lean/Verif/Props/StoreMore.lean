import Verif.Props.StoreFiles

/-! Properties C78 (fingerprints tell contents apart), C79 (a refused write leaves nothing
behind) and C80 (payloads without references are removed). -/

namespace Willow.Props

open Willow Spec

/-! ## C78 -/

/-- C78 is violated: stores with different entries in a range report the same fingerprint and
size, even in the whole of the store. -/
theorem C78_violated : ∃ (lib : KdLib) (a b : StoreState) (r : Range3d),
    runOps (testEnv lib) .empty [put [[1]] 5 [9]] = .ok a ∧ runOps (testEnv lib) .empty [put [[2]] 6 [8]] = .ok b ∧
    (∀ pos : Position, pos ∈ a.kd.map (·.pos) → pos ∉ b.kd.map (·.pos)) ∧
    summarise lib a.kd r = .ok ([], 1) ∧ summarise lib b.kd r = .ok ([], 1) := by
  refine ⟨listLib, _, _, ⟨⟨[], [], true⟩, ⟨[], [], true⟩, ⟨0, 0, true⟩⟩, rfl, rfl, ?_, ?_, ?_⟩ <;> decide +kernel

/-- C78, partial: what differs is at least the size if the numbers of entries in the range
differ (modulo 2^64). Missing: contents of the same size. -/
theorem C78_size_partial (lib : KdLib) (kd kd' : List KdKey) (r : Range3d) (s s' : Bytes × UInt64)
    (h : summarise lib kd r = .ok s) (h' : summarise lib kd' r = .ok s')
    (hne : UInt64.ofNat (howMany (fun k : KdKey => InRange3d r k.pos) kd) ≠ UInt64.ofNat (howMany (fun k : KdKey => InRange3d r k.pos) kd')) :
    s ≠ s' := by
  obtain ⟨fp, n⟩ := s
  obtain ⟨fp', n'⟩ := s'
  have h1 := C36_size_partial lib kd r fp n h
  have h2 := C36_size_partial lib kd' r fp' n' h'
  intro he
  cases he
  exact hne (h1.2.1.symm.trans h2.2.1)

/-- Two entries against one. -/
example : ∃ kd kd' : List KdKey, ∃ r s s', summarise listLib kd r = .ok s ∧ summarise listLib kd' r = .ok s' ∧
    UInt64.ofNat (howMany (fun k : KdKey => InRange3d r k.pos) kd) ≠ UInt64.ofNat (howMany (fun k : KdKey => InRange3d r k.pos) kd') := by
  refine ⟨[⟨⟨[7], [[1]], 5⟩, []⟩], [⟨⟨[7], [[1]], 5⟩, []⟩, ⟨⟨[7], [[2]], 5⟩, []⟩], ⟨⟨[], [], true⟩, ⟨[], [], true⟩, ⟨0, 0, true⟩⟩, _, _, rfl, rfl, ?_⟩
  rw [howMany_in, howMany_in]
  decide +kernel

/-- C78 is violated by all stores with as many entries in the range: two summaries that return are equal exactly when the
numbers of entries are (modulo 2^64), whatever the entries. -/
theorem C78_violated_always (lib : KdLib) (kd kd' : List KdKey) (r : Range3d) (s s' : Bytes × UInt64)
    (h : summarise lib kd r = .ok s) (h' : summarise lib kd' r = .ok s') :
    s = s' ↔ UInt64.ofNat (howMany (fun k : KdKey => InRange3d r k.pos) kd) = UInt64.ofNat (howMany (fun k : KdKey => InRange3d r k.pos) kd') := by
  obtain ⟨fp, n⟩ := s
  obtain ⟨fp', n'⟩ := s'
  have h1 := C36_size_partial lib kd r fp n h
  have h2 := C36_size_partial lib kd' r fp' n' h'
  rw [Prod.mk.injEq, h1.2.1, h2.2.1, h1.1, h2.1]
  simp

example : ∃ kd kd' : List KdKey, ∃ r s s', summarise listLib kd r = .ok s ∧ summarise listLib kd' r = .ok s' ∧ kd.length = 1 ∧ kd'.length = 2 :=
  ⟨[⟨⟨[7], [[1]], 5⟩, []⟩], [⟨⟨[7], [[1]], 5⟩, []⟩, ⟨⟨[7], [[2]], 5⟩, []⟩], ⟨⟨[], [], true⟩, ⟨[], [], true⟩, ⟨0, 0, true⟩⟩, _, _, rfl, rfl, rfl, rfl⟩

/-! ## C79 -/

/-- C79 is violated: a write that is not authorised leaves its payload in the payload files. -/
theorem C79_violated : ∃ (lib : KdLib) (st : StoreState),
    storeSet { testEnv lib with authorise := fun _ _ => none } .empty 0 ⟨[7], [[1]], 5, [9]⟩ [8] = .ok (none, st) ∧
    payloadGet (testEnv lib) st.files [1, 9] = some [9] ∧ st.kv = [] :=
  ⟨listLib, _, rfl, by decide, rfl⟩

/-- C79 is violated: so does one that is refused because a newer entry is stored. -/
theorem C79_violated_older : ∃ (lib : KdLib) (st st' : StoreState),
    runOps (testEnv lib) .empty [put [[1]] 6 [9]] = .ok st ∧
    storeSet (testEnv lib) st 0 ⟨[7], [[1]], 5, [8]⟩ [7] = .ok (none, st') ∧
    payloadGet (testEnv lib) st.files [1, 8] = none ∧ payloadGet (testEnv lib) st'.files [1, 8] = some [8] ∧
    refCount st'.refs [1, 8] = .err := by
  refine ⟨listLib, _, _, rfl, rfl, ?_, ?_, ?_⟩ <;> decide +kernel

/-- C79, partial: after any fine calls a refused fine write leaves the database, the tree, the
reference counts, the partial files, the lock and the payload files with other names as they were. Missing: the payload file
(see `C79_violated_always`). -/
theorem C79_refused_partial (env : StoreEnv) (he : EnvOk env) (ops : List StoreOp) (hf : ∀ op ∈ ops, FineOp env op)
    (st st' : StoreState) (hrun : runOps env .empty ops = .ok st) (now : UInt64) (input : EntryInput) (authorisation : Bytes)
    (hfs : FineOp env (.set now input authorisation)) (h : storeSet env st now input authorisation = .ok (none, st')) :
    st'.kv = st.kv ∧ st'.kd = st.kd ∧ st'.refs = st.refs ∧ st'.partials = st.partials ∧ st'.locked = st.locked ∧
    ∀ digest, env.fileKey digest ≠ env.fileKey (env.hash input.payload) → payloadGet env st'.files digest = payloadGet env st.files digest := by
  rw [refused_set env he ops hf st st' hrun now input authorisation hfs h]
  refine ⟨rfl, rfl, rfl, rfl, rfl, fun digest hd => ?_⟩
  unfold payloadGet payloadSet
  dsimp only
  split
  · rfl
  · split
    · rfl
    · rw [KV.get_set, if_neg hd]

example : ∃ st st', runOps cutEnv .empty exampleOps = .ok st ∧ storeSet cutEnv st 0 ⟨[7], [[1], [2]], 6, [8]⟩ [7] = .ok (none, st') :=
  ⟨_, _, rfl, rfl⟩

/-- C79 is violated by every refused fine write with a payload that has a file name: the payload is in the payload files
afterwards. -/
theorem C79_violated_always (env : StoreEnv) (he : EnvOk env) (ops : List StoreOp) (hf : ∀ op ∈ ops, FineOp env op)
    (st st' : StoreState) (hrun : runOps env .empty ops = .ok st) (now : UInt64) (input : EntryInput) (authorisation : Bytes)
    (hfs : FineOp env (.set now input authorisation)) (h : storeSet env st now input authorisation = .ok (none, st'))
    (hn : env.fileKey (env.hash input.payload) ≠ []) : payloadGet env st'.files (env.hash input.payload) = some input.payload := by
  rw [refused_set env he ops hf st st' hrun now input authorisation hfs h]
  unfold payloadGet payloadSet
  dsimp only
  rw [if_neg hn, if_neg hn, KV.get_set, if_pos rfl]

example : cutEnv.fileKey (cutEnv.hash [8]) ≠ [] := by decide

/-- C79, partial: an entry that is received and refused, after any fine calls and with a path handled exactly, leaves
everything as it was, payload files included. -/
theorem C79_ingest_partial (env : StoreEnv) (he : EnvOk env) (ops : List StoreOp) (hf : ∀ op ∈ ops, FineOp env op)
    (st st' : StoreState) (hrun : runOps env .empty ops = .ok st) (e : Entry) (token : Bytes) (hfe : FineOp env (.ingest e token))
    (h : ingestEntry env st e token = .ok (none, st')) : st' = st := by
  obtain ⟨st0, h1, h2, h3⟩ := run_ok he ops hf
  rw [hrun] at h1
  cases h1
  obtain ⟨hc, hd⟩ := hfe e token rfl
  by_cases hacc : Acceptable env (specRun env [] ops) e token
  · obtain ⟨B, st1, i1, _⟩ := ingestEntry_accepted he h2 h3 e token hc hd hacc.1 hacc.2.1 hacc.2.2
    rw [i1] at h
    cases h
  · rw [ingestEntry_refused h2.core h3 e token hc hacc] at h
    cases h
    rfl

/-- An entry of another namespace is received. -/
example : ∃ st, runOps cutEnv .empty exampleOps = .ok st ∧
    (ingestEntry cutEnv st ⟨[99], [7], [[5]], [1, 9], 1, 9⟩ []).bind (fun x => .ok x.1) = .ok none :=
  ⟨_, rfl, by decide +kernel⟩

/-! ## C80 -/

/-- C80, partial: after fine calls, an accepted entry that displaces the last entry with some payload
digest erases that payload, unless it replaces that entry and has a token with the same file, or an entry was once
replaced by one with the same payload. Missing: that surplus (see `C51_violated`), the empty path, and paths at a
limit. -/
theorem C80_erased_partial (env : StoreEnv) (he : EnvOk env) (ops : List StoreOp) (hf : ∀ op ∈ ops, FineOp env op)
    (hlen : ops.length + 1 < 2 ^ 64) (st st' : StoreState) (hrun : runOps env .empty ops = .ok st) (e : Entry) (token : Bytes)
    (hfe : FineOp env (.ingest e token)) (r : List Entry) (h : ingestEntry env st e token = .ok (some r, st'))
    (a : Item) (hpr : Proper env.p a) (ha : Holds env st a.pos a.val) (hdis : Displaces e.position a.pos)
    (hlast : ∀ b : Item, Proper env.p b → Holds env st' b.pos b.val → b.val.payloadDigest ≠ a.val.payloadDigest)
    (hsur : rewrites env [] ops a.val.payloadDigest = 0) (hname : env.fileKey a.val.payloadDigest ≠ [])
    (htok : a.pos.path = e.path → env.fileKey a.val.payloadDigest ≠ env.fileKey (env.hash (env.tokenEncode token))) :
    payloadGet env st'.files a.val.payloadDigest = none := by
  obtain ⟨st0, h1, h2, h3⟩ := run_ok he ops hf
  rw [hrun] at h1
  cases h1
  obtain ⟨hc, hd⟩ := hfe e token rfl
  have hacc : Acceptable env (specRun env [] ops) e token := by
    refine Classical.byContradiction fun hacc => ?_
    rw [ingestEntry_refused h2.core h3 e token hc hacc] at h
    cases h
  obtain ⟨B, st1, i1, i2, i3, i4, i5, i6⟩ := ingestEntry_accepted he h2 h3 e token hc hd hacc.1 hacc.2.1 hacc.2.2
  rw [h] at i1
  cases i1
  have hfi := i6 fun d => by
    have := refs_run (env := env) ops [] (fun _ => 0) d
    simp only [refsTo, List.countP_nil] at this ⊢
    omega
  have haA := (h2.holds he hpr).1 ha
  have hnone : ∀ b ∈ afterInsert (specRun env [] ops) (newItem env e token), b.val.payloadDigest ≠ a.val.payloadDigest := by
    intro b hb
    have hpb := (i3.core.fine b hb).proper
    exact hlast b hpb ((i3.holds he hpb).2 hb)
  have hz : refsTo (afterInsert (specRun env [] ops) (newItem env e token)) a.val.payloadDigest = 0 := by
    unfold refsTo
    exact List.countP_eq_zero.2 fun b hb => by simpa using hnone b hb
  have hl : leakAfter (specRun env [] ops) e (leakRun env [] (fun _ => 0) ops) a.val.payloadDigest = 0 := by
    rw [leakAfter_eq h2.core.apart, leakRun_eq ops [] _ List.Pairwise.nil, hsur]
    rw [if_neg fun hh => hnone _ List.mem_cons_self hh.1]
  have hgone := hfi.gone a haA hdis (by rw [hz, hl]) hname htok
  unfold payloadGet
  dsimp only
  rw [if_neg hname, hgone]

/-- C52 is violated whenever the last entry with some payload is pruned or replaced and the payload has the file of the
token of a stored entry (in the application: the payload is the name of the subspace): the token is gone. (If the entry
is replaced, that of another entry than the new one; and no entry was replaced by one with this payload before.) -/
theorem C52_violated_always (env : StoreEnv) (he : EnvOk env) (ops : List StoreOp) (hf : ∀ op ∈ ops, FineOp env op)
    (hlen : ops.length + 1 < 2 ^ 64) (st st' : StoreState) (hrun : runOps env .empty ops = .ok st) (e : Entry) (token : Bytes)
    (hfe : FineOp env (.ingest e token)) (r : List Entry) (h : ingestEntry env st e token = .ok (some r, st'))
    (a : Item) (hpr : Proper env.p a) (ha : Holds env st a.pos a.val) (hdis : Displaces e.position a.pos)
    (hlast : ∀ b : Item, Proper env.p b → Holds env st' b.pos b.val → b.val.payloadDigest ≠ a.val.payloadDigest)
    (hsur : rewrites env [] ops a.val.payloadDigest = 0) (hname : env.fileKey a.val.payloadDigest ≠ [])
    (htok : a.pos.path = e.path → env.fileKey a.val.payloadDigest ≠ env.fileKey (env.hash (env.tokenEncode token)))
    (b : Item) (_ : Holds env st' b.pos b.val) (hsame : env.fileKey b.val.authDigest = env.fileKey a.val.payloadDigest) :
    payloadGet env st'.files b.val.authDigest = none := by
  have := C80_erased_partial env he ops hf hlen st st' hrun e token hfe r h a hpr ha hdis hlast hsur hname htok
  unfold payloadGet at this ⊢
  rw [hsame]
  exact this

example : ∃ st st' r, runOps cutEnv .empty [put [[1], [2]] 5 [7]] = .ok st ∧
    ingestEntry cutEnv st ⟨[42], [7], [[1]], [1, 4], 1, 6⟩ [7] = .ok (some r, st') ∧
    Displaces ⟨[7], [[1]], 6⟩ ⟨[7], [[1], [2]], 5⟩ ∧ Holds cutEnv st' ⟨[7], [[1]], 6⟩ ⟨1, [1, 4], [1, 7]⟩ ∧
    cutEnv.fileKey [1, 7] ≠ [] := by
  refine ⟨_, _, _, rfl, rfl, by decide +kernel, ⟨by decide +kernel, ⟨_, List.mem_singleton.2 rfl, by decide +kernel⟩⟩, by decide⟩

/-- C52 is violated whenever an entry is replaced by one with another token: the file of the old token is erased, and
so the token of every other stored entry that has it is gone. -/
theorem C52_violated_replaced (env : StoreEnv) (he : EnvOk env) (ops : List StoreOp) (hf : ∀ op ∈ ops, FineOp env op)
    (hlen : ops.length + 1 < 2 ^ 64) (st st' : StoreState) (hrun : runOps env .empty ops = .ok st) (e : Entry) (token : Bytes)
    (hfe : FineOp env (.ingest e token)) (r : List Entry) (h : ingestEntry env st e token = .ok (some r, st'))
    (a : Item) (hpr : Proper env.p a) (ha : Holds env st a.pos a.val) (hs : a.pos.subspace = e.subspaceId) (hp : a.pos.path = e.path)
    (hname : env.fileKey a.val.authDigest ≠ [])
    (htok : env.fileKey a.val.authDigest ≠ env.fileKey (env.hash (env.tokenEncode token)))
    (b : Item) (_ : Holds env st' b.pos b.val) (hsame : b.val.authDigest = a.val.authDigest) :
    payloadGet env st'.files b.val.authDigest = none := by
  obtain ⟨st0, h1, h2, h3⟩ := run_ok he ops hf
  rw [hrun] at h1
  cases h1
  obtain ⟨hc, hd⟩ := hfe e token rfl
  have hacc : Acceptable env (specRun env [] ops) e token := by
    refine Classical.byContradiction fun hacc => ?_
    rw [ingestEntry_refused h2.core h3 e token hc hacc] at h
    cases h
  obtain ⟨B, st1, i1, i2, i3, i4, i5, i6⟩ := ingestEntry_accepted he h2 h3 e token hc hd hacc.1 hacc.2.1 hacc.2.2
  rw [h] at i1
  cases i1
  have hfi := i6 fun d => by
    have := refs_run (env := env) ops [] (fun _ => 0) d
    simp only [refsTo, List.countP_nil] at this ⊢
    omega
  have := hfi.forgotten a ((h2.holds he hpr).1 ha) hs hp hname htok
  unfold payloadGet
  dsimp only
  rw [hsame, if_neg hname, this]

example : ∃ st st' r, runOps { cutEnv with isAuthorised := fun _ _ => true } .empty [put [[1]] 5 [3], put [[2]] 5 [4]] = .ok st ∧
    ingestEntry { cutEnv with isAuthorised := fun _ _ => true } st ⟨[42], [7], [[1]], [1, 4], 1, 6⟩ [9] = .ok (some r, st') ∧
    Holds { cutEnv with isAuthorised := fun _ _ => true } st' ⟨[7], [[2]], 5⟩ ⟨1, [1, 4], [1, 7]⟩ ∧ cutEnv.fileKey [1, 7] ≠ [] ∧
    cutEnv.fileKey [1, 7] ≠ cutEnv.fileKey (cutEnv.hash (cutEnv.tokenEncode [9])) :=
  ⟨_, _, _, rfl, rfl, ⟨by decide +kernel, ⟨⟨⟨[7], [[2]], 5⟩, []⟩, by decide +kernel, rfl⟩⟩, by decide, by decide⟩

/-- C80 is violated: see `C51_violated`; the payload [9] has no entry and can still be read. -/
theorem C80_violated : ∃ (lib : KdLib) (st : StoreState),
    runOps (testEnv lib) .empty [put [[1]] 5 [9], put [[1]] 6 [9], put [[1]] 7 [8]] = .ok st ∧
    (∀ pos v, st.kv.get (encodeKey tinyParams pos) = some (encodeValues v) → v.payloadDigest.length < 2 ^ 64 →
      v.authDigest.length < 2 ^ 64 → v.payloadDigest ≠ [1, 9]) ∧
    payloadGet (testEnv lib) st.files [1, 9] = some [9] := by
  obtain ⟨lib, st, h1, h2, _, h4⟩ := C51_violated
  refine ⟨lib, st, h1, fun pos v h hp hau => ?_, h4⟩
  have := KV.get_mem h
  rw [h2, List.mem_singleton, Prod.mk.injEq] at this
  have hv := C24_roundtrip v hp hau
  rw [this.2, C24_roundtrip _ (by decide) (by decide)] at hv
  cases hv
  decide

example : ∃ st st' r, runOps cutEnv .empty [put [[1], [2]] 5 [9]] = .ok st ∧
    ingestEntry cutEnv st ⟨[42], [7], [[1]], [1, 4], 1, 6⟩ [7] = .ok (some r, st') ∧
    Displaces ⟨[7], [[1]], 6⟩ ⟨[7], [[1], [2]], 5⟩ ∧ payloadGet cutEnv st.files [1, 9] = some [9] ∧
    payloadGet cutEnv st'.files [1, 9] = none := by
  refine ⟨_, _, _, rfl, rfl, ?_, ?_, ?_⟩ <;> decide +kernel

/-- C80 is violated whenever an entry was once replaced by one with the same payload: after any such fine calls, an
accepted entry that displaces entries with this payload leaves the payload file as it is, though no
entry with the payload may be left (if the file is no other stored payload's and not that of
the token of the new or of the replaced entry). -/
theorem C80_violated_always (env : StoreEnv) (he : EnvOk env) (ops : List StoreOp) (hf : ∀ op ∈ ops, FineOp env op)
    (hlen : ops.length + 1 < 2 ^ 64) (st st' : StoreState) (hrun : runOps env .empty ops = .ok st) (e : Entry) (token : Bytes)
    (hfe : FineOp env (.ingest e token)) (r : List Entry) (h : ingestEntry env st e token = .ok (some r, st'))
    (d : Bytes) (hsur : rewrites env [] ops d ≠ 0)
    (hkey : ∀ b : Item, Proper env.p b → Holds env st b.pos b.val → env.fileKey b.val.payloadDigest = env.fileKey d →
      b.val.payloadDigest = d)
    (hold : ∀ b : Item, Proper env.p b → Holds env st b.pos b.val → b.pos.subspace = e.subspaceId → b.pos.path = e.path →
      env.fileKey b.val.authDigest ≠ env.fileKey d)
    (htok : env.fileKey d ≠ env.fileKey (env.hash (env.tokenEncode token))) :
    payloadGet env st'.files d = payloadGet env st.files d := by
  obtain ⟨st0, h1, h2, h3⟩ := run_ok he ops hf
  rw [hrun] at h1
  cases h1
  obtain ⟨hc, hd⟩ := hfe e token rfl
  have hacc : Acceptable env (specRun env [] ops) e token := by
    refine Classical.byContradiction fun hacc => ?_
    rw [ingestEntry_refused h2.core h3 e token hc hacc] at h
    cases h
  obtain ⟨B, st1, i1, i2, i3, i4, i5, i6⟩ := ingestEntry_accepted he h2 h3 e token hc hd hacc.1 hacc.2.1 hacc.2.2
  rw [h] at i1
  cases i1
  have hfi := i6 fun d => by
    have := refs_run (env := env) ops [] (fun _ => 0) d
    simp only [refsTo, List.countP_nil] at this ⊢
    omega
  have hl : leakAfter (specRun env [] ops) e (leakRun env [] (fun _ => 0) ops) d ≠ 0 := by
    rw [leakAfter_eq h2.core.apart, leakRun_eq ops [] _ List.Pairwise.nil]
    split <;> omega
  have hkept := hfi.kept (env.fileKey d) htok
    (fun o ho hs hp => by
      have hpo := (h2.core.fine o ho).proper
      exact hold o hpo ((h2.holds he hpo).2 ho) hs hp)
    (fun b hb _ hz hk => by
      have hpb := (h2.core.fine b hb).proper
      rw [hkey b hpb ((h2.holds he hpb).2 hb) hk] at hz
      omega)
  unfold payloadGet
  dsimp only
  rw [hkept]

example : ∃ st st' r, runOps cutEnv .empty [put [[1]] 5 [9], put [[1]] 6 [9]] = .ok st ∧
    ingestEntry cutEnv st ⟨[42], [7], [[1]], [1, 8], 1, 7⟩ [7] = .ok (some r, st') ∧
    rewrites cutEnv [] [put [[1]] 5 [9], put [[1]] 6 [9]] [1, 9] ≠ 0 ∧
    payloadGet cutEnv st'.files [1, 9] = some [9] := by
  refine ⟨_, _, _, rfl, rfl, ?_, by decide +kernel⟩
  have h : Rewrites cutEnv (specStep cutEnv [] (put [[1]] 5 [9])) (put [[1]] 6 [9]) [1, 9] :=
    ⟨⟨[42], [7], [[1]], [1, 9], 1, 6⟩, [7], rfl, by decide +kernel, rfl, newItem cutEnv ⟨[42], [7], [[1]], [1, 9], 1, 5⟩ [7],
      by decide +kernel, rfl, rfl, rfl⟩
  simp only [rewrites]
  rw [if_pos h]
  omega

end Willow.Props
