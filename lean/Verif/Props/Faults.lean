import Verif.Lemmas.FaultsFiles

/-! Property C136: writes and reads that fail are reported. -/

namespace Willow.Props

open Willow Spec

/-- C136, partial: if the entry cannot be written to its database, then, whatever else fails, the call does not succeed and
no entry is added or changed. Missing: that none is lost and the store can be used afterwards (see
`C136_violated_lock`), and failures of other writes (see `C136_violated_file`, `C136_violated_partly`, `C136_violated_count`,
`C136_violated_failed`, `C136_violated_prune`, `C136_violated_replace`) and of reads (see `C136_violated_read`,
`C136_violated_readPrune`). -/
theorem C136_reported_partial (f : Faults) (hf : f.entrySet = true) (env : StoreEnv) (st : StoreState) (op : StoreOp)
    (hop : op ≠ .restart) (r : Option (List Entry)) (st' : StoreState) (h : runOpF f env st op = .ok (r, st')) :
    r = none ∧ ∀ k v, st'.kv.get k = some v → st.kv.get k = some v := by
  cases op with
  | restart => exact absurd rfl hop
  | ingest e token => exact ingestEntryF_refuses f hf env st e token _ _ h
  | set now input au => exact storeSetF_refuses f hf env st now input au _ _ h

example : ∃ x, runOpF { entrySet := true, erase := true } cutEnv .empty (put [[1]] 4 [9]) = .ok x ∧ x.1 = none ∧ x.2.kv = [] :=
  exists_ok (by decide +kernel)

/-- C136, partial: if nothing fails, every call does what it does in the rest of the model. Missing: as above. -/
theorem C136_none_partial (env : StoreEnv) (st : StoreState) (op : StoreOp) : runOpF {} env st op = runOp env st op :=
  runOpF_none env st op

example : ∃ x, runOpF {} cutEnv .empty (put [[1]] 4 [9]) = .ok x ∧ x.1 = some [] ∧ x.2.files.length = 2 :=
  exists_ok (by decide +kernel)

/-- C136, partial: failures to write or remove files change neither what a call returns nor the entries, counts and lock
it leaves. Missing: that a payload that could not be written is reported (see `C136_violated_file`). -/
theorem C136_files_partial (f : Faults) (hs : f.entrySet = false) (hd : f.entryDelete = false) (hr : f.refSet = false)
    (hre : f.entryRead = false) (hrr : f.refRead = false)
    (env : StoreEnv) (st : StoreState) (op : StoreOp) (r : Option (List Entry)) (st' : StoreState)
    (h : runOp env st op = .ok (r, st')) :
    ∃ st'', runOpF f env st op = .ok (r, st'') ∧ st''.kv = st'.kv ∧ st''.kd = st'.kd ∧ st''.refs = st'.refs ∧
      st''.locked = st'.locked := by
  have ha := runOpF_alike f hs hd hr hre hrr env st op
  rw [h] at ha
  generalize runOpF f env st op = q at ha ⊢
  cases ha with
  | ok ha => exact ⟨_, rfl, ha.1, ha.2.1, ha.2.2.1, ha.2.2.2⟩

example : ∃ x, runOpF { payloadFile := true, tokenFile := true, erase := true } cutEnv .empty (put [[1]] 4 [9]) = .ok x ∧
    x.1 = some [] ∧ x.2.kv.length = 1 ∧ x.2.files = [] :=
  exists_ok (by decide +kernel)

/-- C136 is violated by every payload: after any fine calls, if the file of a payload that is not there cannot be
opened for writing, then `Set` succeeds and stores the entry, and reading its payload finds none. -/
theorem C136_violated_file (env : StoreEnv) (he : EnvOk env) (ops : List StoreOp) (hf : ∀ o ∈ ops, FineOp env o)
    (now : UInt64) (input : EntryInput) (au : Bytes) (hop : FineOp env (.set now input au)) (e : Entry) (token : Bytes)
    (hat : attempt env (.set now input au) = some (e, token)) (hacc : Acceptable env (specRun env [] ops) e token)
    (hn : env.fileKey e.payloadDigest ≠ []) (ht : env.fileKey e.payloadDigest ≠ env.fileKey (env.hash (env.tokenEncode token)))
    (habs : ∀ st, runOps env .empty ops = .ok st → st.files.get (env.fileKey e.payloadDigest) = none) :
    ∃ st pruned st', runOps env .empty ops = .ok st ∧
      runOpF { payloadFile := true } env st (.set now input au) = .ok (some pruned, st') ∧
      Holds env st' (newItem env e token).pos (newItem env e token).val ∧ storeGetPayload env st' e.position = .ok none := by
  obtain ⟨st, pruned, st', h1, h2, h3, h4⟩ := set_unwritten none env he ops hf now input au hop e token hat hacc ht
  obtain ⟨hc, hd⟩ := hop e token hat
  refine ⟨st, pruned, st', h1, h2, h3, ?_⟩
  rw [show e.position = (newItem env e token).pos from rfl, getPayload_held env st' _ ⟨hc.valid, hd, he.hash _⟩ h3 hn]
  cases hg : st'.files.get (env.fileKey (newItem env e token).val.payloadDigest) with
  | none => rfl
  | some v =>
    refine absurd hg (h4 v ?_)
    show st.files.get _ ≠ _
    rw [habs st h1]
    exact fun h => by cases h

example : ∃ st, runOps cutEnv .empty [put [[1]] 4 [9]] = .ok st ∧ st.files.get (cutEnv.fileKey [1, 3]) = none ∧
    Acceptable cutEnv (specRun cutEnv [] [put [[1]] 4 [9]]) ⟨[42], [7], [[1]], [1, 3], 1, 6⟩ [7] ∧
    attempt cutEnv (put [[1]] 6 [3]) = some (⟨[42], [7], [[1]], [1, 3], 1, 6⟩, [7]) ∧
    cutEnv.fileKey [1, 3] ≠ [] ∧ cutEnv.fileKey [1, 3] ≠ cutEnv.fileKey (cutEnv.hash (cutEnv.tokenEncode [7])) := by
  obtain ⟨st, h1, h2⟩ := exists_ok (r := runOps cutEnv .empty [put [[1]] 4 [9]])
    (P := fun st => st.files.get (cutEnv.fileKey [1, 3]) = none) (by decide +kernel)
  exact ⟨st, h1, h2, by decide +kernel, rfl, by decide, by decide⟩

/-- C136 is violated by every payload: after any fine calls, if only a part of it can be written, then `Set` succeeds and
stores the entry, and reading its payload does not give the payload; nor does it for any other stored entry with that
payload, for which it may have done so before. -/
theorem C136_violated_partly (env : StoreEnv) (he : EnvOk env) (ops : List StoreOp) (hf : ∀ o ∈ ops, FineOp env o)
    (now : UInt64) (input : EntryInput) (au : Bytes) (hop : FineOp env (.set now input au)) (e : Entry) (token : Bytes)
    (hat : attempt env (.set now input au) = some (e, token)) (hacc : Acceptable env (specRun env [] ops) e token)
    (hn : env.fileKey e.payloadDigest ≠ []) (ht : env.fileKey e.payloadDigest ≠ env.fileKey (env.hash (env.tokenEncode token)))
    (n : Nat) (hless : n < input.payload.length) :
    ∃ st pruned st', runOps env .empty ops = .ok st ∧
      runOpF { payloadFile := true, partly := some n } env st (.set now input au) = .ok (some pruned, st') ∧
      Holds env st' (newItem env e token).pos (newItem env e token).val ∧
      storeGetPayload env st' e.position ≠ .ok (some input.payload) ∧
      ∀ a : Item, Proper env.p a → Holds env st' a.pos a.val → a.val.payloadDigest = e.payloadDigest →
        storeGetPayload env st' a.pos ≠ .ok (some input.payload) := by
  obtain ⟨st, pruned, st', h1, h2, h3, h4⟩ := set_unwritten (some n) env he ops hf now input au hop e token hat hacc ht
  obtain ⟨hc, hd⟩ := hop e token hat
  have hdig : e.payloadDigest = env.hash input.payload := by
    have hx : (env.authorise (setEntry env now input) au).map (fun t => (setEntry env now input, t)) = some (e, token) := hat
    cases hau : env.authorise (setEntry env now input) au with
    | none => rw [hau] at hx; cases hx
    | some t => rw [hau] at hx; cases hx; rfl
  have hx : st'.files.get (env.fileKey e.payloadDigest) ≠ some input.payload := by
    refine h4 _ ?_
    unfold failedWrite
    dsimp only
    rw [← hdig, if_neg hn, KV.get_set_self]
    intro h
    have := congrArg List.length (Option.some.inj h)
    rw [List.length_take] at this
    omega
  have hall : ∀ a : Item, Proper env.p a → Holds env st' a.pos a.val → a.val.payloadDigest = e.payloadDigest →
      storeGetPayload env st' a.pos ≠ .ok (some input.payload) := by
    intro a ha hh had
    rw [getPayload_held env st' a ha hh (by rw [had]; exact hn), had]
    exact fun h => hx (Res.ok.inj h)
  exact ⟨st, pruned, st', h1, h2, h3, hall (newItem env e token) ⟨hc.valid, hd, he.hash _⟩ h3 rfl, hall⟩

/-- The payload of the entry before can no longer be read. -/
example : (∃ st, runOps cutEnv .empty [put [[1]] 4 [9, 8]] = .ok st ∧
      storeGetPayload cutEnv st ⟨[7], [[1]], 4⟩ = .ok (some [9, 8])) ∧
    ∃ x, (runOps cutEnv .empty [put [[1]] 4 [9, 8]] >>= fun st =>
        runOpF { payloadFile := true, partly := some 1 } cutEnv st (put [[2]] 6 [9, 8])) = .ok x ∧
      x.1 = some [] ∧ storeGetPayload cutEnv x.2 ⟨[7], [[1]], 4⟩ = .ok (some [9]) :=
  ⟨exists_ok (by decide +kernel), exists_ok (by decide +kernel)⟩

/-- C136 is violated by every acceptable entry: after any fine calls, if it cannot be written to its database, then the
call fails with the lock held, so that every later call that stores waits for ever; and an entry that it would have
replaced is lost. -/
theorem C136_violated_lock (env : StoreEnv) (he : EnvOk env) (ops : List StoreOp) (hf : ∀ o ∈ ops, FineOp env o)
    (e : Entry) (token : Bytes) (hop : FineOp env (.ingest e token)) (hacc : Acceptable env (specRun env [] ops) e token) :
    ∃ st st', runOps env .empty ops = .ok st ∧ runOpF { entrySet := true } env st (.ingest e token) = .ok (none, st') ∧
      (∀ e' token', runOp env st' (.ingest e' token') = .block) ∧
      ∀ o ∈ specRun env [] ops, o.pos.subspace = e.subspaceId → o.pos.path = e.path →
        Holds env st o.pos o.val ∧ ¬ Holds env st' o.pos o.val := by
  obtain ⟨st, h1, h2, h3⟩ := run_ok he ops hf
  obtain ⟨hc, hd⟩ := hop e token rfl
  obtain ⟨st', i1, i2, i3⟩ := ingestEntryF_stuck he h2 h3 e token hc hacc
  refine ⟨st, st', h1, i1, fun e' token' => ?_, fun o ho hos hop' => ?_⟩
  · show ingestEntry env st' e' token' = .block
    unfold ingestEntry
    rw [if_pos i2]
  · obtain ⟨A', p1, p2⟩ := i3 o ho hos hop'
    have hpo := (h2.core.fine o ho).proper
    refine ⟨(h2.holds he hpo).2 ho, fun hx => ?_⟩
    have hap := (List.pairwise_cons.1 ((h2.core.perm p1).apart)).1
    exact hap o ((p2.holds he hpo).1 hx) ⟨rfl, rfl⟩

example : Acceptable cutEnv (specRun cutEnv [] [put [[1]] 4 [9]]) ⟨[42], [7], [[1]], [1, 3], 1, 6⟩ [7] ∧
    ⟨⟨[7], [[1]], 4⟩, ⟨1, [1, 9], [1, 7]⟩⟩ ∈ specRun cutEnv [] [put [[1]] 4 [9]] :=
  ⟨by decide +kernel, by decide +kernel⟩

/-- C136 is violated by every entry from elsewhere at a new path with a payload not counted so far: if the count cannot be
written, the call succeeds and stores the entry, but no entry with another payload can replace it: every fine, authorised
and newer entry at its path is refused, the entry is removed, and the lock stays held. -/
theorem C136_violated_count (env : StoreEnv) (he : EnvOk env) (ops : List StoreOp) (hf : ∀ o ∈ ops, FineOp env o)
    (e : Entry) (token : Bytes) (hop : FineOp env (.ingest e token)) (hacc : Acceptable env (specRun env [] ops) e token)
    (hnew : ∀ o ∈ specRun env [] ops, ¬ (o.pos.subspace = e.subspaceId ∧ o.pos.path = e.path))
    (hcount : ∀ st, runOps env .empty ops = .ok st → st.refs.get e.payloadDigest = none) :
    ∃ st pruned st', runOps env .empty ops = .ok st ∧
      runOpF { refSet := true } env st (.ingest e token) = .ok (some pruned, st') ∧
      Holds env st' (newItem env e token).pos (newItem env e token).val ∧
      ∀ e' token', FineOp env (.ingest e' token') → env.nsEqual env.namespaceId e'.namespaceId = true →
        env.isAuthorised e' token' = true → e'.subspaceId = e.subspaceId → e'.path = e.path →
        e.timestamp < e'.timestamp → e'.payloadDigest ≠ e.payloadDigest →
        ∃ st'', runOp env st' (.ingest e' token') = .ok (none, st'') ∧
          ¬ Holds env st'' (newItem env e token).pos (newItem env e token).val ∧
          ¬ Holds env st'' (newItem env e' token').pos (newItem env e' token').val ∧
          ∀ e'' token'', runOp env st'' (.ingest e'' token'') = .block := by
  obtain ⟨st, h1, h2, h3⟩ := run_ok he ops hf
  obtain ⟨hc, hd⟩ := hop e token rfl
  obtain ⟨B, st', c1, _, c2, c3, c4⟩ := ingestEntryF_fresh { refSet := true } rfl rfl rfl he h2 h3 e token hc hd hacc hnew
  rw [if_neg (by decide)] at c4
  have hpn : Proper env.p (newItem env e token) := ⟨hc.valid, hd, he.hash _⟩
  refine ⟨st, _, st', h1, c1, (c4.holds he hpn).2 List.mem_cons_self, ?_⟩
  intro e' token' hf' hns hau hs hp ht hdig
  obtain ⟨hc', hd'⟩ := hf' e' token' rfl
  have hacc' : Acceptable env (newItem env e token :: (specRun env [] ops).filter fun a => !decide (Prunes e.position a.pos)) e' token' := by
    refine ⟨hns, hau, ?_⟩
    intro a ha has hap
    rcases List.mem_cons.1 ha with rfl | ha
    · exact ht
    · have := hacc.2.2 a (List.mem_filter.1 ha).1 (has.trans hs) (by rw [← hp]; exact hap)
      exact UInt64.lt_trans this ht
  obtain ⟨st'', i1, i2, i3⟩ := ingest_uncounted he c4 c2 (by rw [c3 rfl]; exact hcount st h1) e' token' hc' hacc' hs.symm hp.symm hdig.symm
  have hpn' : Proper env.p (newItem env e' token') := ⟨hc'.valid, hd', he.hash _⟩
  refine ⟨st'', i1, fun hx => ?_, fun hx => ?_, fun e'' token'' => ?_⟩
  · exact hnew _ (List.mem_filter.1 ((i3.holds he hpn).1 hx)).1 ⟨rfl, rfl⟩
  · exact hnew _ (List.mem_filter.1 ((i3.holds he hpn').1 hx)).1 ⟨hs, hp⟩
  · show ingestEntry env st'' e'' token'' = .block
    unfold ingestEntry
    rw [if_pos i2]

example : ∃ st, runOps cutEnv .empty [put [[1]] 4 [9]] = .ok st ∧ st.refs.get [1, 3] = none ∧
    Acceptable cutEnv (specRun cutEnv [] [put [[1]] 4 [9]]) ⟨[42], [7], [[2]], [1, 3], 1, 6⟩ [7] ∧
    (∀ o ∈ specRun cutEnv [] [put [[1]] 4 [9]], ¬ (o.pos.subspace = [7] ∧ o.pos.path = [[2]])) := by
  obtain ⟨st, h1, h2⟩ := exists_ok (r := runOps cutEnv .empty [put [[1]] 4 [9]])
    (P := fun st => st.refs.get [1, 3] = none) (by decide +kernel)
  exact ⟨st, h1, h2, by decide +kernel, by decide +kernel⟩

/-- C136 is violated by `Set` of a payload not counted so far at any new path: if the count cannot be written, the call fails,
but the entry is stored. -/
theorem C136_violated_failed (env : StoreEnv) (he : EnvOk env) (ops : List StoreOp) (hf : ∀ o ∈ ops, FineOp env o)
    (now : UInt64) (input : EntryInput) (au : Bytes) (hop : FineOp env (.set now input au)) (e : Entry) (token : Bytes)
    (hat : attempt env (.set now input au) = some (e, token)) (hacc : Acceptable env (specRun env [] ops) e token)
    (hnew : ∀ o ∈ specRun env [] ops, ¬ (o.pos.subspace = e.subspaceId ∧ o.pos.path = e.path))
    (hcount : ∀ st, runOps env .empty ops = .ok st → st.refs.get e.payloadDigest = none) :
    ∃ st st', runOps env .empty ops = .ok st ∧ runOpF { refSet := true } env st (.set now input au) = .ok (none, st') ∧
      ¬ Holds env st (newItem env e token).pos (newItem env e token).val ∧
      Holds env st' (newItem env e token).pos (newItem env e token).val := by
  obtain ⟨st, h1, h2, h3⟩ := run_ok he ops hf
  obtain ⟨hc, hd⟩ := hop e token hat
  have hpn : Proper env.p (newItem env e token) := ⟨hc.valid, hd, he.hash _⟩
  have hset : setEntry env now input = e ∧ env.authorise (setEntry env now input) au = some token := by
    have hx : (env.authorise (setEntry env now input) au).map (fun t => (setEntry env now input, t)) = some (e, token) := hat
    cases hau : env.authorise (setEntry env now input) au with
    | none => rw [hau] at hx; cases hx
    | some t => rw [hau] at hx; cases hx; exact ⟨rfl, rfl⟩
  have h2' : Abs env { st with files := (payloadSet env st.files input.payload).1 } (specRun env [] ops) _ := ⟨h2.core, h2.refs⟩
  obtain ⟨B, st', c1, _, c2, c3, c4⟩ := ingestEntryF_fresh { refSet := true } rfl rfl rfl he h2' h3 e token hc hd hacc hnew
  rw [if_neg (by decide)] at c4
  have hdig : (payloadSet env st.files input.payload).2.1 = e.payloadDigest := by rw [← hset.1]; rfl
  refine ⟨st, st', h1, ?_, fun hx => hnew _ ((h2.holds he hpn).1 hx) ⟨rfl, rfl⟩, (c4.holds he hpn).2 List.mem_cons_self⟩
  show storeSetF _ env st now input au = _
  simp only [storeSetF, payloadSetF, Bool.false_eq_true, if_false]
  rw [hset.2]
  dsimp only
  rw [hset.1, c1, hdig]
  dsimp only
  rw [refCountF_read rfl, show refCount st'.refs e.payloadDigest = .err by
    unfold refCount
    rw [c3 rfl]
    rw [show ({ st with files := (payloadSet env st.files input.payload).1 } : StoreState).refs.get e.payloadDigest = none from hcount st h1]]

example : ∃ x, runOpF { refSet := true } cutEnv .empty (put [[1]] 4 [9]) = .ok x ∧ x.1 = none ∧ x.2.kv.length = 1 :=
  exists_ok (by decide +kernel)

/-- C136 is violated by every entry that prunes: after any fine calls, if entries cannot be deleted from their database, an
acceptable entry at a new path succeeds and reports the older entries below as pruned, and the store holds them still. -/
theorem C136_violated_prune (env : StoreEnv) (he : EnvOk env) (ops : List StoreOp) (hf : ∀ o ∈ ops, FineOp env o)
    (e : Entry) (token : Bytes) (hop : FineOp env (.ingest e token)) (hacc : Acceptable env (specRun env [] ops) e token)
    (hnew : ∀ o ∈ specRun env [] ops, ¬ (o.pos.subspace = e.subspaceId ∧ o.pos.path = e.path))
    (old : Item) (ho : old ∈ specRun env [] ops) (hpr : Prunes e.position old.pos) :
    ∃ st pruned st', runOps env .empty ops = .ok st ∧
      runOpF { entryDelete := true } env st (.ingest e token) = .ok (some pruned, st') ∧
      old.entry env.namespaceId ∈ pruned ∧ Holds env st' old.pos old.val ∧
      Holds env st' (newItem env e token).pos (newItem env e token).val := by
  obtain ⟨st, h1, h2, h3⟩ := run_ok he ops hf
  obtain ⟨hc, hd⟩ := hop e token rfl
  obtain ⟨B, st', c1, cb, c2, c3, c4⟩ := ingestEntryF_fresh { entryDelete := true } rfl rfl rfl he h2 h3 e token hc hd hacc hnew
  rw [if_pos rfl] at c4
  have hpn : Proper env.p (newItem env e token) := ⟨hc.valid, hd, he.hash _⟩
  refine ⟨st, _, st', h1, c1, ?_, (c4.holds he (h2.core.fine old ho).proper).2 (List.mem_cons_of_mem _ ho),
    (c4.holds he hpn).2 List.mem_cons_self⟩
  exact List.mem_map.2 ⟨old, cb.mem_iff.2 (List.mem_filter.2 ⟨ho, by simpa using hpr⟩), rfl⟩

example : Acceptable cutEnv (specRun cutEnv [] [put [[1], [2]] 4 [9]]) ⟨[42], [7], [[1]], [1, 3], 1, 6⟩ [7] ∧
    ⟨⟨[7], [[1], [2]], 4⟩, ⟨1, [1, 9], [1, 7]⟩⟩ ∈ specRun cutEnv [] [put [[1], [2]] 4 [9]] ∧
    Prunes ⟨[7], [[1]], 6⟩ ⟨[7], [[1], [2]], 4⟩ :=
  ⟨by decide +kernel, by decide +kernel, by decide⟩

/-- C136 is violated by every replacement: after any fine calls, if the entry to be replaced cannot be deleted from its
database, an acceptable entry with nothing older below succeeds, the store holds both, and looking for either ends the
process. -/
theorem C136_violated_replace (env : StoreEnv) (he : EnvOk env) (ops : List StoreOp) (hf : ∀ o ∈ ops, FineOp env o)
    (e : Entry) (token : Bytes) (hop : FineOp env (.ingest e token)) (hacc : Acceptable env (specRun env [] ops) e token)
    (o : Item) (ho : o ∈ specRun env [] ops) (hos : o.pos.subspace = e.subspaceId) (hopath : o.pos.path = e.path)
    (hbelow : ∀ a ∈ specRun env [] ops, ¬ Prunes e.position a.pos) :
    ∃ st st', runOps env .empty ops = .ok st ∧
      runOpF { entryDelete := true } env st (.ingest e token) = .ok (some [], st') ∧
      Holds env st' o.pos o.val ∧ Holds env st' (newItem env e token).pos (newItem env e token).val ∧
      entryGet env st' e.subspaceId e.path = .crash := by
  obtain ⟨st, h1, h2, h3⟩ := run_ok he ops hf
  obtain ⟨hc, hd⟩ := hop e token rfl
  obtain ⟨st', i1, _, _, i2, i3, i4⟩ := ingestEntryF_both he h2 h3 e token hc hacc o ho hos hopath hbelow
  have hpo := (h2.core.fine o ho).proper
  obtain ⟨g1, k, hk, hk'⟩ := (h2.holds he hpo).2 ho
  have hne : o.pos ≠ e.position := fun hx => by
    have ht : o.pos.time < e.timestamp := hacc.2.2 o ho hos (by rw [hopath]; exact List.prefix_refl _)
    rw [hx] at ht
    exact absurd ht (UInt64.lt_irrefl _)
  refine ⟨st, st', h1, i1, ⟨?_, k, ?_, hk'⟩, ⟨?_, ⟨e.position, []⟩, ?_, rfl⟩, i4⟩
  · rw [i2, KV.get_set_ne _ _ (fun hx => hne (C23_injective_partial env.p o.pos e.position
      (shortPath_of_limits he.cc he.cl hpo.valid) (shortPath_of_limits he.cc he.cl hc.valid) hx))]
    exact g1
  · rw [i3]; exact List.mem_append_left _ hk
  · rw [i2]; exact KV.get_set_self _ _ _
  · rw [i3]; exact List.mem_append_right _ (List.mem_singleton.2 rfl)

example : Acceptable cutEnv (specRun cutEnv [] [put [[1]] 4 [9], put [[2]] 5 [8]]) ⟨[42], [7], [[1]], [1, 3], 1, 6⟩ [7] ∧
    ⟨⟨[7], [[1]], 4⟩, ⟨1, [1, 9], [1, 7]⟩⟩ ∈ specRun cutEnv [] [put [[1]] 4 [9], put [[2]] 5 [8]] ∧
    ∀ a ∈ specRun cutEnv [] [put [[1]] 4 [9], put [[2]] 5 [8]], ¬ Prunes ⟨[7], [[1]], 6⟩ a.pos :=
  ⟨by decide +kernel, by decide +kernel, by decide +kernel⟩

/-- C136 is violated by every replacement: after any fine calls, if the entry to be replaced cannot be read from its
database, the call fails with the lock held, so that every later call that stores waits for ever. The same if the count of
its payload cannot be read and the new payload is another; then the entry is lost as well. -/
theorem C136_violated_read (env : StoreEnv) (he : EnvOk env) (ops : List StoreOp) (hf : ∀ o ∈ ops, FineOp env o)
    (e : Entry) (token : Bytes) (hop : FineOp env (.ingest e token)) (hacc : Acceptable env (specRun env [] ops) e token)
    (o : Item) (ho : o ∈ specRun env [] ops) (hos : o.pos.subspace = e.subspaceId) (hopath : o.pos.path = e.path) :
    ∃ st st', runOps env .empty ops = .ok st ∧ runOpF { entryRead := true } env st (.ingest e token) = .ok (none, st') ∧
      (∀ e' token', runOp env st' (.ingest e' token') = .block) ∧
      (o.val.payloadDigest ≠ e.payloadDigest →
        ∃ st'', runOpF { refRead := true } env st (.ingest e token) = .ok (none, st'') ∧
          (∀ e' token', runOp env st'' (.ingest e' token') = .block) ∧ ¬ Holds env st'' o.pos o.val) := by
  obtain ⟨st, h1, h2, h3⟩ := run_ok he ops hf
  obtain ⟨hc, hd⟩ := hop e token rfl
  obtain ⟨i1, i2⟩ := ingestEntryF_unread he h2 h3 e token hc hacc o ho hos hopath
  have hblock : ∀ s : StoreState, s.locked = true → ∀ e' token', runOp env s (.ingest e' token') = .block := by
    intro s hs e' token'
    show ingestEntry env s e' token' = .block
    unfold ingestEntry
    rw [if_pos hs]
  refine ⟨st, _, h1, i1, hblock _ rfl, fun hdig => ?_⟩
  obtain ⟨st'', A', j1, j2, j3, j4⟩ := i2 hdig
  have hpo := (h2.core.fine o ho).proper
  refine ⟨st'', j1, hblock _ j2, fun hx => ?_⟩
  exact (List.pairwise_cons.1 ((h2.core.perm j3).apart)).1 o ((j4.holds he hpo).1 hx) ⟨rfl, rfl⟩

example : Acceptable cutEnv (specRun cutEnv [] [put [[1]] 4 [9], put [[2]] 5 [8]]) ⟨[42], [7], [[1]], [1, 3], 1, 6⟩ [7] ∧
    ⟨⟨[7], [[1]], 4⟩, ⟨1, [1, 9], [1, 7]⟩⟩ ∈ specRun cutEnv [] [put [[1]] 4 [9], put [[2]] 5 [8]] :=
  ⟨by decide +kernel, by decide +kernel⟩

/-- C136 is violated by every entry that prunes: after any fine calls, if entries cannot be read from their database, an
acceptable entry at a new path is stored and the call fails, the older entries below are kept, and the lock stays held. -/
theorem C136_violated_readPrune (env : StoreEnv) (he : EnvOk env) (ops : List StoreOp) (hf : ∀ o ∈ ops, FineOp env o)
    (e : Entry) (token : Bytes) (hop : FineOp env (.ingest e token)) (hacc : Acceptable env (specRun env [] ops) e token)
    (hnew : ∀ o ∈ specRun env [] ops, ¬ (o.pos.subspace = e.subspaceId ∧ o.pos.path = e.path))
    (old : Item) (ho : old ∈ specRun env [] ops) (hpr : Prunes e.position old.pos) :
    ∃ st st', runOps env .empty ops = .ok st ∧ runOpF { entryRead := true } env st (.ingest e token) = .ok (none, st') ∧
      Holds env st' (newItem env e token).pos (newItem env e token).val ∧ Holds env st' old.pos old.val ∧
      ∀ e' token', runOp env st' (.ingest e' token') = .block := by
  obtain ⟨st, h1, h2, h3⟩ := run_ok he ops hf
  obtain ⟨hc, hd⟩ := hop e token rfl
  obtain ⟨st', i1, i2, i3⟩ := ingestEntryF_unreadBelow he h2 h3 e token hc hd hacc hnew old ho hpr
  have hpn : Proper env.p (newItem env e token) := ⟨hc.valid, hd, he.hash _⟩
  refine ⟨st, st', h1, i1, (i3.holds he hpn).2 List.mem_cons_self,
    (i3.holds he (h2.core.fine old ho).proper).2 (List.mem_cons_of_mem _ ho), fun e' token' => ?_⟩
  show ingestEntry env st' e' token' = .block
  unfold ingestEntry
  rw [if_pos i2]

example : Acceptable cutEnv (specRun cutEnv [] [put [[1], [2]] 4 [9]]) ⟨[42], [7], [[1]], [1, 3], 1, 6⟩ [7] ∧
    ⟨⟨[7], [[1], [2]], 4⟩, ⟨1, [1, 9], [1, 7]⟩⟩ ∈ specRun cutEnv [] [put [[1], [2]] 4 [9]] ∧
    Prunes ⟨[7], [[1]], 6⟩ ⟨[7], [[1], [2]], 4⟩ :=
  ⟨by decide +kernel, by decide +kernel, by decide⟩

end Willow.Props
