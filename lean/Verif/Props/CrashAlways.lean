import Verif.Lemmas.CrashAlways
import Verif.Lemmas.PropsStore
import Verif.Lemmas.PropsStoreKept

/-! C111: where a process must end to do harm, for all stores and calls. -/

namespace Willow.Props

open Willow Spec

/-- C111 is violated by every replacement: after any fine calls, during any fine call that stores an entry
at the path of another, there is a moment such that if the process ends then, the store opened again holds
neither the old entry nor the new one, and all the others. -/
theorem C111_violated_replacing (env : StoreEnv) (he : EnvOk env) (ops : List StoreOp) (op : StoreOp)
    (hf : ∀ o ∈ ops, FineOp env o) (hop : FineOp env op) (e : Entry) (token : Bytes)
    (hat : attempt env op = some (e, token)) (hacc : Acceptable env (specRun env [] ops) e token)
    (o : Item) (ho : o ∈ specRun env [] ops) (hs : o.pos.subspace = e.subspaceId) (hp : o.pos.path = e.path) :
    ∃ st n st', runOps env .empty ops = .ok st ∧ Holds env st o.pos o.val ∧ crashAfter env st op n = .ok st' ∧
      ¬ Holds env st' o.pos o.val ∧ ¬ Holds env st' (newItem env e token).pos (newItem env e token).val ∧
      ∀ a : Item, Proper env.p a → (Holds env st' a.pos a.val ↔ a ∈ specRun env [] ops ∧ a ≠ o) := by
  obtain ⟨st, h1, h2, h3⟩ := run_ok he ops hf
  obtain ⟨n, st', A0, c1, hA0, _, c3⟩ := crash_replacing he h2 h3 op hop e token hat hacc o ho hs hp
  obtain ⟨hc, hd⟩ := hop e token hat
  have hfo := h2.core.fine o ho
  have hpo : Proper env.p o := ⟨hfo.path.valid, hfo.digest, hfo.auth⟩
  have hpn : Proper env.p (newItem env e token) := ⟨hc.valid, hd, he.hash _⟩
  have hap := (List.pairwise_cons.1 ((h2.core.perm hA0).apart)).1
  have hoA0 : o ∉ A0 := fun hx => hap o hx ⟨rfl, rfl⟩
  have hnA : newItem env e token ∉ specRun env [] ops := by
    intro hx
    have := hacc.2.2 _ hx rfl (List.prefix_refl _)
    exact absurd this (by simp [newItem, UInt64.lt_irrefl])
  have hall : ∀ a : Item, Proper env.p a → (Holds env st' a.pos a.val ↔ a ∈ specRun env [] ops ∧ a ≠ o) := by
    intro a ha
    rw [c3.holds he ha]
    constructor
    · exact fun hx => ⟨hA0.mem_iff.2 (List.mem_cons_of_mem _ hx), fun hc => hoA0 (hc ▸ hx)⟩
    · exact fun ⟨hx, hne⟩ => (List.mem_cons.1 (hA0.mem_iff.1 hx)).resolve_left hne
  exact ⟨st, n, st', h1, (h2.holds he hpo).2 ho, c1, fun hx => ((hall o hpo).1 hx).2 rfl,
    fun hx => hnA ((hall _ hpn).1 hx).1, hall⟩

example : (∀ o ∈ [put [[1]] 4 [9], put [[2]] 5 [8]], FineOp cutEnv o) ∧ FineOp cutEnv (put [[1]] 6 [3]) ∧
    attempt cutEnv (put [[1]] 6 [3]) = some (⟨[42], [7], [[1]], [1, 3], 1, 6⟩, [7]) ∧
    Acceptable cutEnv (specRun cutEnv [] [put [[1]] 4 [9], put [[2]] 5 [8]]) ⟨[42], [7], [[1]], [1, 3], 1, 6⟩ [7] ∧
    ⟨⟨[7], [[1]], 4⟩, ⟨1, [1, 9], [1, 7]⟩⟩ ∈ specRun cutEnv [] [put [[1]] 4 [9], put [[2]] 5 [8]] := by
  have hc1 : Comfortable cutEnv.p [[1]] := cut_comfortable _ ⟨by decide, by decide, by decide⟩ (by decide) (by decide) (by decide)
  have hc2 : Comfortable cutEnv.p [[2]] := cut_comfortable _ ⟨by decide, by decide, by decide⟩ (by decide) (by decide) (by decide)
  refine ⟨?_, cut_fine _ _ _ hc1, rfl, by decide +kernel, by decide +kernel⟩
  simp only [List.forall_mem_cons, List.not_mem_nil, false_implies, implies_true, and_true]
  exact ⟨cut_fine _ _ _ hc1, cut_fine _ _ _ hc2⟩

/-- C111 is violated by every write of a new payload to a new path: after any fine calls, there is a moment
such that if the process ends then, the store opened again holds the new entry, but no entry with another
payload can replace it: every fine, authorised and newer entry at its path is refused, the entry is
removed, and the lock stays held. -/
theorem C111_violated_uncounted_always (env : StoreEnv) (he : EnvOk env) (ops : List StoreOp) (op : StoreOp)
    (hf : ∀ o ∈ ops, FineOp env o) (hop : FineOp env op) (e : Entry) (token : Bytes)
    (hat : attempt env op = some (e, token)) (hacc : Acceptable env (specRun env [] ops) e token)
    (hnew : ∀ o ∈ specRun env [] ops, ¬ (o.pos.subspace = e.subspaceId ∧ o.pos.path = e.path))
    (hcount : ∀ st, runOps env .empty ops = .ok st → st.refs.get e.payloadDigest = none) :
    ∃ st n st', runOps env .empty ops = .ok st ∧ crashAfter env st op n = .ok st' ∧
      Holds env st' (newItem env e token).pos (newItem env e token).val ∧
      ∀ e' token', FineOp env (.ingest e' token') → env.nsEqual env.namespaceId e'.namespaceId = true →
        env.isAuthorised e' token' = true → e'.subspaceId = e.subspaceId → e'.path = e.path →
        e.timestamp < e'.timestamp → e'.payloadDigest ≠ e.payloadDigest →
        ∃ st'', runOp env st' (.ingest e' token') = .ok (none, st'') ∧ st''.locked = true ∧
          ¬ Holds env st'' (newItem env e token).pos (newItem env e token).val ∧
          ¬ Holds env st'' (newItem env e' token').pos (newItem env e' token').val ∧
          ∀ e'' token'', runOp env st'' (.ingest e'' token'') = .block := by
  obtain ⟨st, h1, h2, h3⟩ := run_ok he ops hf
  obtain ⟨n, st', c1, c2, c3, c4⟩ := crash_uncounted he h2 h3 op hop e token hat hacc hnew
  obtain ⟨hc, hd⟩ := hop e token hat
  have hpn : Proper env.p (newItem env e token) := ⟨hc.valid, hd, he.hash _⟩
  refine ⟨st, n, st', h1, c1, (c4.holds he hpn).2 List.mem_cons_self, ?_⟩
  intro e' token' hf' hns hau hs hp ht hdig
  obtain ⟨hc', hd'⟩ := hf' e' token' rfl
  have hacc' : Acceptable env (newItem env e token :: specRun env [] ops) e' token' := by
    refine ⟨hns, hau, ?_⟩
    intro a ha has hap
    rcases List.mem_cons.1 ha with rfl | ha
    · exact ht
    · have := hacc.2.2 a ha (has.trans hs) (by rw [← hp]; exact hap)
      exact UInt64.lt_trans this ht
  obtain ⟨st'', i1, i2, i3⟩ := ingest_uncounted he c4 c2 (by rw [c3]; exact hcount st h1) e' token' hc' hacc' hs.symm hp.symm hdig.symm
  have hpn' : Proper env.p (newItem env e' token') := ⟨hc'.valid, hd', he.hash _⟩
  refine ⟨st'', i1, i2, fun hx => ?_, fun hx => ?_, fun e'' token'' => ?_⟩
  · exact hnew _ ((i3.holds he hpn).1 hx) ⟨rfl, rfl⟩
  · exact hnew _ ((i3.holds he hpn').1 hx) ⟨hs, hp⟩
  · show ingestEntry env st'' e'' token'' = .block
    unfold ingestEntry
    rw [if_pos i2]

example : ∃ st, runOps cutEnv .empty [put [[1]] 4 [9]] = .ok st ∧ st.refs.get [1, 3] = none ∧
    Acceptable cutEnv (specRun cutEnv [] [put [[1]] 4 [9]]) ⟨[42], [7], [[2]], [1, 3], 1, 6⟩ [7] ∧
    (∀ o ∈ specRun cutEnv [] [put [[1]] 4 [9]], ¬ (o.pos.subspace = [7] ∧ o.pos.path = [[2]])) ∧
    cutEnv.isAuthorised ⟨[42], [7], [[2]], [1, 4], 1, 7⟩ [7] = true := by
  obtain ⟨st, h1, h2⟩ := exists_ok (r := runOps cutEnv .empty [put [[1]] 4 [9]])
    (P := fun st => st.refs.get [1, 3] = none) (by decide +kernel)
  exact ⟨st, h1, h2, by decide +kernel, by decide +kernel, by decide⟩

/-- C111 is violated by every write to a new path that has older entries below: there is a moment such that if the
process ends then, the store opened again holds the new entry, all older entries below it that it should have pruned,
and all others. -/
theorem C111_violated_pruning (env : StoreEnv) (he : EnvOk env) (ops : List StoreOp) (op : StoreOp)
    (hf : ∀ o ∈ ops, FineOp env o) (hop : FineOp env op) (e : Entry) (token : Bytes)
    (hat : attempt env op = some (e, token)) (hacc : Acceptable env (specRun env [] ops) e token)
    (hnew : ∀ o ∈ specRun env [] ops, ¬ (o.pos.subspace = e.subspaceId ∧ o.pos.path = e.path))
    (old : Item) (ho : old ∈ specRun env [] ops) (hpr : Prunes e.position old.pos) :
    ∃ st n st', runOps env .empty ops = .ok st ∧ crashAfter env st op n = .ok st' ∧
      Holds env st' e.position (newItem env e token).val ∧ Holds env st' old.pos old.val ∧ Prunes e.position old.pos ∧
      ∀ a : Item, Proper env.p a → (Holds env st' a.pos a.val ↔ a = newItem env e token ∨ a ∈ specRun env [] ops) := by
  obtain ⟨st, h1, h2, h3⟩ := run_ok he ops hf
  obtain ⟨n, st', c1, c2, c3, c4⟩ := crash_uncounted he h2 h3 op hop e token hat hacc hnew
  obtain ⟨hc, hd⟩ := hop e token hat
  have hpn : Proper env.p (newItem env e token) := ⟨hc.valid, hd, he.hash _⟩
  have hall : ∀ a : Item, Proper env.p a → (Holds env st' a.pos a.val ↔ a = newItem env e token ∨ a ∈ specRun env [] ops) :=
    fun a ha => by rw [c4.holds he ha, List.mem_cons]
  exact ⟨st, n, st', h1, c1, (hall _ hpn).2 (.inl rfl), (hall _ (h2.core.fine old ho).proper).2 (.inr ho), hpr, hall⟩

example : Acceptable cutEnv (specRun cutEnv [] [put [[1], [2]] 4 [9]]) ⟨[42], [7], [[1]], [1, 3], 1, 6⟩ [7] ∧
    ⟨⟨[7], [[1], [2]], 4⟩, ⟨1, [1, 9], [1, 7]⟩⟩ ∈ specRun cutEnv [] [put [[1], [2]] 4 [9]] ∧
    (∀ o ∈ specRun cutEnv [] [put [[1], [2]] 4 [9]], ¬ (o.pos.subspace = [7] ∧ o.pos.path = [[1]])) ∧
    Prunes ⟨[7], [[1]], 6⟩ ⟨[7], [[1], [2]], 4⟩ :=
  ⟨by decide +kernel, by decide +kernel, by decide +kernel, by decide⟩

/-- C111 is violated by every call of `Set`, even one that is refused, with the payload of a stored entry:
the file is emptied first. If the process ends then, the store opened again holds the entry with an empty
payload. -/
theorem C111_violated_truncated (env : StoreEnv) (he : EnvOk env) (ops : List StoreOp) (hf : ∀ o ∈ ops, FineOp env o)
    (a : Item) (ha : a ∈ specRun env [] ops) (now : UInt64) (input : EntryInput) (au : Bytes)
    (hd : a.val.payloadDigest = env.hash input.payload) (hn : env.fileKey a.val.payloadDigest ≠ []) :
    ∃ st st', runOps env .empty ops = .ok st ∧ crashAfter env st (.set now input au) 1 = .ok st' ∧
      Holds env st' a.pos a.val ∧ storeGetPayload env st' a.pos = .ok (some []) := by
  obtain ⟨st, h1, h2, h3⟩ := run_ok he ops hf
  have hw : ∃ rest, opWrites env st (.set now input au) = .file (env.fileKey (env.hash input.payload)) [] :: rest := by
    unfold opWrites setWrites payloadWrites
    dsimp only
    rw [if_neg (by rw [← hd]; exact hn)]
    exact ⟨_, rfl⟩
  obtain ⟨rest, hw⟩ := hw
  have hcore : Core env.p (applyWrite st (.file (env.fileKey (env.hash input.payload)) [])).kv st.kd (specRun env [] ops) := h2.core
  obtain ⟨st', r1, r2, r3, r4, r5, _⟩ := restart_core he hcore
  refine ⟨st, st', h1, ?_, ⟨r2.get ha, r2.in_kd ha⟩, ?_⟩
  · unfold crashAfter
    rw [hw]
    exact r1
  · unfold storeGetPayload
    rw [r2.get ha]
    dsimp only
    have hfa := r2.fine a ha
    rw [C24_roundtrip a.val hfa.digest hfa.auth, Res.ok_bind]
    unfold payloadGet
    rw [if_neg hn, r5, hd]
    show Res.ok ((st.files.set _ _).get _) = _
    rw [KV.get_set, if_pos rfl]

example : ⟨⟨[7], [[1]], 4⟩, ⟨1, [1, 9], [1, 7]⟩⟩ ∈ specRun cutEnv [] [put [[1]] 4 [9]] ∧
    cutEnv.hash [9] = [1, 9] ∧ cutEnv.fileKey [1, 9] ≠ [] := by
  refine ⟨by decide +kernel, by decide, by decide⟩

end Willow.Props
