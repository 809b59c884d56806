import Verif.Lemmas.FaultsCount
import Verif.Props.Faults

/-! C136: entries stored while counts of references cannot be read. -/

namespace Willow.Props

open Willow Spec

/-- C136 is violated by every entry at a new path with no older entries below it, while counts cannot be read: after any fine calls,
`IngestEntry` succeeds and stores the entry, and the counts are as before, so that it is not counted; nothing is reported. -/
theorem C136_violated_uncounted (env : StoreEnv) (he : EnvOk env) (ops : List StoreOp) (hf : ∀ o ∈ ops, FineOp env o)
    (e : Entry) (token : Bytes) (hop : FineOp env (.ingest e token)) (hacc : Acceptable env (specRun env [] ops) e token)
    (hnew : ∀ o ∈ specRun env [] ops, ¬ (o.pos.subspace = e.subspaceId ∧ o.pos.path = e.path))
    (hbelow : ∀ a ∈ specRun env [] ops, ¬ Prunes e.position a.pos) :
    ∃ st st', runOps env .empty ops = .ok st ∧ runOpF { refRead := true } env st (.ingest e token) = .ok (some [], st') ∧
      (∀ a : Item, Proper env.p a → (Holds env st' a.pos a.val ↔ a = newItem env e token ∨ a ∈ specRun env [] ops)) ∧ st'.refs = st.refs := by
  obtain ⟨st, h1, h2, h3⟩ := run_ok he ops hf
  obtain ⟨hc, hd⟩ := hop e token rfl
  obtain ⟨st', i1, i2, i3, i4⟩ := ingestEntryF_unreadCount he h2 h3 e token hc hd hacc hnew hbelow
  exact ⟨st, st', h1, i1, fun a ha => by rw [i4.holds he ha, List.mem_cons], i3⟩

example : Acceptable cutEnv (specRun cutEnv [] [put [[1]] 4 [9]]) ⟨[42], [7], [[2]], [1, 3], 1, 6⟩ [7] ∧
    (∀ o ∈ specRun cutEnv [] [put [[1]] 4 [9]], ¬ (o.pos.subspace = [7] ∧ o.pos.path = [[2]])) ∧
    (∀ a ∈ specRun cutEnv [] [put [[1]] 4 [9]], ¬ Prunes ⟨[7], [[2]], 6⟩ a.pos) :=
  ⟨by decide +kernel, by decide +kernel, by decide +kernel⟩

/-- C136 is violated by every `Set` at a new path with no older entries below it, while counts cannot be read: after any fine calls, the call
fails, and the entry is stored. -/
theorem C136_violated_uncountedSet (env : StoreEnv) (he : EnvOk env) (ops : List StoreOp) (hf : ∀ o ∈ ops, FineOp env o)
    (now : UInt64) (input : EntryInput) (au : Bytes) (hop : FineOp env (.set now input au)) (e : Entry) (token : Bytes)
    (hat : attempt env (.set now input au) = some (e, token)) (hacc : Acceptable env (specRun env [] ops) e token)
    (hnew : ∀ o ∈ specRun env [] ops, ¬ (o.pos.subspace = e.subspaceId ∧ o.pos.path = e.path))
    (hbelow : ∀ a ∈ specRun env [] ops, ¬ Prunes e.position a.pos) :
    ∃ st st', runOps env .empty ops = .ok st ∧ runOpF { refRead := true } env st (.set now input au) = .ok (none, st') ∧
      ∀ a : Item, Proper env.p a → (Holds env st' a.pos a.val ↔ a = newItem env e token ∨ a ∈ specRun env [] ops) := by
  obtain ⟨st, h1, h2, h3⟩ := run_ok he ops hf
  obtain ⟨hc, hd⟩ := hop e token hat
  have hset : setEntry env now input = e ∧ env.authorise (setEntry env now input) au = some token := by
    have hx : (env.authorise (setEntry env now input) au).map (fun t => (setEntry env now input, t)) = some (e, token) := hat
    cases hau : env.authorise (setEntry env now input) au with
    | none => rw [hau] at hx; cases hx
    | some t => rw [hau] at hx; cases hx; exact ⟨rfl, rfl⟩
  have h2' : Abs env { st with files := (payloadSet env st.files input.payload).1 } (specRun env [] ops) _ := ⟨h2.core, h2.refs⟩
  obtain ⟨st', i1, i2, i3, i4⟩ := ingestEntryF_unreadCount he h2' h3 e token hc hd hacc hnew hbelow
  refine ⟨st, st', h1, ?_, fun a ha => by rw [i4.holds he ha, List.mem_cons]⟩
  show storeSetF _ env st now input au = _
  simp only [storeSetF, payloadSetF, Bool.false_eq_true, if_false]
  rw [hset.2]
  dsimp only
  rw [hset.1, i1]
  rfl

example : ∃ x, runOpF { refRead := true } cutEnv .empty (put [[1]] 4 [9]) = .ok x ∧ x.1 = none ∧ x.2.kv.length = 1 :=
  exists_ok (by decide +kernel)

end Willow.Props
