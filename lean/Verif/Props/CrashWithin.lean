import Verif.Lemmas.CrashWithin
import Verif.Props.CrashAlways

/-! C111: the process ends while a file is being written. -/

namespace Willow.Props

open Willow Spec

/-- C111, partial: also if the process ends when only a part of a file is written, the store can be opened again, holds what
`C111_between_partial` says, and unless the last change before was the write of the new entry goes on as a store with its entries should.
Missing: what is missing there and in `C111_goesOn_partial`. -/
theorem C111_within_partial (env : StoreEnv) (he : EnvOk env) (ops : List StoreOp) (op : StoreOp) (n k : Nat)
    (hf : ∀ o ∈ ops, FineOp env o) (hop : FineOp env op) :
    ∃ st st' A', runOps env .empty ops = .ok st ∧ crashWithin env st op n k = .ok st' ∧ st'.locked = false ∧
      CutOff env (specRun env [] ops) A' op ∧ (∀ a : Item, Proper env.p a → (Holds env st' a.pos a.val ↔ a ∈ A')) ∧
      (¬ EndsInEntry ((opWrites env st op).take n) → ∀ later : List StoreOp, (∀ o ∈ later, FineOp env o) →
        ∃ st'', runOps env st' later = .ok st'' ∧ st''.locked = false ∧
          ∀ a : Item, Proper env.p a → (Holds env st'' a.pos a.val ↔ a ∈ specRun env A' later)) := by
  obtain ⟨st, h1, h2, h3⟩ := run_ok he ops hf
  obtain ⟨st', A', c1, c2, c3, c4, c5, _⟩ := crashWithin_ok he h2 h3 op hop n k
  refine ⟨st, st', A', h1, c1, c4, c2, fun a ha => c3.holds he ha, fun hne later hl => ?_⟩
  obtain ⟨leak', habs⟩ := c5 hne
  obtain ⟨st'', r1, r2, r3⟩ := runOps_ok he later st' A' leak' habs c4 hl
  exact ⟨st'', r1, r3, fun a ha => r2.holds he ha⟩

example : (∀ o ∈ [put [[1]] 5 [9]], FineOp cutEnv o) ∧ FineOp cutEnv (put [[1]] 6 [3, 4]) ∧
    (do
      let st ← runOps cutEnv .empty [put [[1]] 5 [9]]
      let st' ← crashWithin cutEnv st (put [[1]] 6 [3, 4]) 1 0
      let st'' ← runOps cutEnv st' [put [[1]] 7 [4]]
      Res.ok (st'.kd.map (fun k => k.pos), st''.kd.map fun k => k.pos)) = Res.ok ([⟨[7], [[1]], 5⟩], [⟨[7], [[1]], 7⟩]) := by
  have hc : Comfortable cutEnv.p [[1]] := cut_comfortable _ ⟨by decide, by decide, by decide⟩ (by decide) (by decide) (by decide)
  refine ⟨?_, cut_fine _ _ _ hc, by decide +kernel⟩
  intro o ho
  rw [List.mem_singleton] at ho
  rw [ho]
  exact cut_fine _ _ _ hc

/-- C111, partial: also if the process ends when only a part of a file is written, the payload of an entry that the call does not displace
reads as before, under the conditions of `C111_payload_partial`. Missing: another entry with the payload being written (see
`C111_violated_partly`). -/
theorem C111_within_payload_partial (env : StoreEnv) (he : EnvOk env) (ops : List StoreOp) (op : StoreOp) (n k : Nat)
    (hf : ∀ o ∈ ops, FineOp env o) (hop : FineOp env op) (hlen : ops.length + 1 < 2 ^ 64) (a : Item)
    (ha : a ∈ specRun env [] ops) (hun : Unmoved env (specRun env [] ops) op a)
    (hel : Elsewhere env (specRun env [] ops) op (env.fileKey a.val.payloadDigest))
    (huniq : ∀ x ∈ specRun env [] ops, env.fileKey x.val.payloadDigest = env.fileKey a.val.payloadDigest →
      x.val.payloadDigest = a.val.payloadDigest) :
    ∃ st st', runOps env .empty ops = .ok st ∧ crashWithin env st op n k = .ok st' ∧
      Holds env st' a.pos a.val ∧ storeGetPayload env st' a.pos = storeGetPayload env st a.pos := by
  obtain ⟨st, h1, h2, h3⟩ := run_ok he ops hf
  obtain ⟨st', A', c1, c2, c3, c4, c5, c6⟩ := crashWithin_ok he h2 h3 op hop n k
  have hb : ∀ d, refsTo (specRun env [] ops) d + leakRun env [] (fun _ => 0) ops d + 1 < 2 ^ 64 := by
    intro d
    have := refs_run (env := env) ops [] (fun _ => 0) d
    simp only [refsTo, List.countP_nil, Nat.zero_add] at this
    simp only [refsTo]
    omega
  have hname := c6 hb _ ⟨hel, a, ha, hun, rfl, huniq⟩
  have ha' : a ∈ A' := by
    unfold CutOff at c2
    cases hat : attempt env op with
    | none => rw [hat] at c2; rw [c2]; exact ha
    | some et =>
      obtain ⟨e, token⟩ := et
      rw [hat] at c2
      dsimp only at c2
      split at c2
      · rename_i hac
        exact c2.kept a ha (hun e token hat hac)
      · rw [c2]; exact ha
  refine ⟨st, st', h1, c1, ⟨c3.get ha', c3.in_kd ha'⟩, ?_⟩
  unfold storeGetPayload
  rw [c3.get ha', h2.core.get ha]
  dsimp only
  have hfa := h2.core.fine a ha
  rw [C24_roundtrip a.val hfa.digest hfa.auth]
  simp only [Res.ok_bind, payloadGet, hname]

/-- The conditions are those of `C111_between_partial` and `C111_payload_partial`; here the second change writes the payload `[3, 4]`, of which the first byte
is there when the process ends. -/
example : (∀ o ∈ [put [[1]] 4 [9]], FineOp cutEnv o) ∧ FineOp cutEnv (put [[2]] 6 [3, 4]) ∧
    (do
      let st ← runOps cutEnv .empty [put [[1]] 4 [9]]
      let st' ← crashWithin cutEnv st (put [[2]] 6 [3, 4]) 1 1
      Res.ok (st'.files.get (cutEnv.fileKey (cutEnv.hash [3, 4])), st'.kd.map fun k => k.pos)) = Res.ok (some [3], [⟨[7], [[1]], 4⟩]) := by
  have hc : ∀ c : UInt8, c = 1 ∨ c = 2 → Comfortable cutEnv.p [[c]] := by
    intro c h
    rcases h with rfl | rfl <;> exact cut_comfortable _ ⟨by decide, by decide, by decide⟩ (by decide) (by decide) (by decide)
  refine ⟨?_, cut_fine _ _ _ (hc 2 (.inr rfl)), by decide +kernel⟩
  intro o ho
  rw [List.mem_singleton] at ho
  rw [ho]
  exact cut_fine _ _ _ (hc 1 (.inl rfl))

/-- C111 is violated by every call of `Set`, even one that is refused, with the payload of a stored entry: the file is written anew. If
the process ends when `k` bytes are written, the store opened again holds the entry, and its payload has the first `k` bytes only. -/
theorem C111_violated_partly (env : StoreEnv) (he : EnvOk env) (ops : List StoreOp) (hf : ∀ o ∈ ops, FineOp env o)
    (a : Item) (ha : a ∈ specRun env [] ops) (now : UInt64) (input : EntryInput) (au : Bytes)
    (hd : a.val.payloadDigest = env.hash input.payload) (hn : env.fileKey a.val.payloadDigest ≠ []) (k : Nat) :
    ∃ st st', runOps env .empty ops = .ok st ∧ crashWithin env st (.set now input au) 1 k = .ok st' ∧
      Holds env st' a.pos a.val ∧ storeGetPayload env st' a.pos = .ok (some (input.payload.take k)) := by
  obtain ⟨st, h1, h2, h3⟩ := run_ok he ops hf
  have hw : ∃ rest, opWrites env st (.set now input au) = .file (env.fileKey (env.hash input.payload)) [] ::
      .file (env.fileKey (env.hash input.payload)) input.payload :: rest := by
    unfold opWrites setWrites payloadWrites
    dsimp only
    rw [if_neg (by rw [← hd]; exact hn)]
    exact ⟨_, rfl⟩
  obtain ⟨rest, hw⟩ := hw
  have hcore : Core env.p (applyWrites st [.file (env.fileKey (env.hash input.payload)) [],
      .file (env.fileKey (env.hash input.payload)) (input.payload.take k)]).kv st.kd (specRun env [] ops) := h2.core
  obtain ⟨st', r1, r2, r3, r4, r5, _⟩ := restart_core he hcore
  refine ⟨st, st', h1, ?_, ⟨r2.get ha, r2.in_kd ha⟩, ?_⟩
  · unfold crashWithin
    rw [hw]
    exact r1
  · unfold storeGetPayload
    rw [r2.get ha]
    dsimp only
    have hfa := r2.fine a ha
    rw [C24_roundtrip a.val hfa.digest hfa.auth, Res.ok_bind]
    unfold payloadGet
    rw [if_neg hn, r5, hd]
    show Res.ok (((st.files.set _ _).set _ _).get _) = _
    rw [KV.get_set, if_pos rfl]

/-- A stored entry with payload `[9, 9]`; one byte of two is left. -/
example : ⟨⟨[7], [[1]], 4⟩, ⟨2, [1, 9, 9], [1, 7]⟩⟩ ∈ specRun cutEnv [] [put [[1]] 4 [9, 9]] ∧
    cutEnv.hash [9, 9] = [1, 9, 9] ∧ cutEnv.fileKey [1, 9, 9] ≠ [] ∧ ([9, 9] : Bytes).take 1 ≠ [9, 9] := by
  decide +kernel

end Willow.Props
