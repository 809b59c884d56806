import Verif.Lemmas.Fingerprints
import Verif.Lemmas.PropsReconcile
import Verif.Props.Store

/-! Properties of restarting that fail for whole classes of stores (C56, C57). -/

namespace Willow.Props

open Willow Spec

/-! ## C56 -/

/-- C56 is violated by all stores with two entries or more, if the iterator reuses its buffer for the key: restarting succeeds,
but all positions in the new tree are the last one of the database. -/
theorem C56_violated_always (env : StoreEnv) (he : EnvOk env) (ops : List StoreOp) (hf : ∀ op ∈ ops, FineOp env op) (st : StoreState)
    (hrun : runOps env .empty ops = .ok st) (h2 : 2 ≤ st.kd.length) :
    ∃ st', restart env (fun kv => kv.map fun e => ((kv.getLast?.getD e).1, e.2)) st = .ok st' ∧
      (∃ pos, ∀ k ∈ st'.kd, k.pos = pos) ∧ ¬ (st'.kd.map (·.pos)).Perm (st.kd.map (·.pos)) := by
  obtain ⟨st1, h1, hA, _⟩ := run_ok he ops hf
  cases hrun.symm.trans h1
  obtain ⟨L, hL, hkv⟩ := exists_map_of_perm hA.core.kv_perm
  have hlen : 2 ≤ L.length := by
    have := hA.core.kd_perm.length_eq
    simp only [List.length_map] at this
    rw [hL.length_eq, ← this]; exact h2
  have hne : L ≠ [] := by intro h; rw [h] at hlen; simp at hlen
  obtain ⟨z, hz⟩ : ∃ z, L.getLast? = some z := ⟨_, List.getLast?_eq_some_getLast hne⟩
  have hzm : z ∈ L := List.mem_of_getLast? hz
  have hlist : (st.kv.map fun e => ((st.kv.getLast?.getD e).1, e.2)) = (L.map fun a => (⟨z.pos, a.val⟩ : Item)).map (Item.pair env.p) := by
    rw [hkv, List.map_map, List.map_map, List.getLast?_map, hz]
    rfl
  have hok := initKeys_ok he (L.map fun a => (⟨z.pos, a.val⟩ : Item)) (by
    intro a ha
    obtain ⟨b, hb, rfl⟩ := List.mem_map.1 ha
    have h3 := hA.core.fine b (hL.mem_iff.1 hb)
    exact ⟨(hA.core.fine z (hL.mem_iff.1 hzm)).path, h3.digest, h3.auth⟩)
  refine ⟨_, by unfold restart; dsimp only; rw [hlist, hok]; rfl, ⟨z.pos, ?_⟩, ?_⟩
  · intro k hk
    obtain ⟨a, ha, rfl⟩ := List.mem_map.1 hk
    obtain ⟨b, hb, rfl⟩ := List.mem_map.1 ha
    rfl
  · intro hp
    have hp := hp.trans hA.core.kd_perm
    have hap := hA.core.apart
    have hal := hL.length_eq
    have hall : ∀ a ∈ specRun env [] ops, a.pos = z.pos := by
      intro a ha
      have := hp.mem_iff.2 (List.mem_map.2 ⟨a, ha, rfl⟩)
      obtain ⟨k, hk, e⟩ := List.mem_map.1 this
      obtain ⟨b, hb, rfl⟩ := List.mem_map.1 hk
      obtain ⟨c, hc, rfl⟩ := List.mem_map.1 hb
      exact e.symm
    revert hap hal hall
    generalize specRun env [] ops = A
    intro hap hal hall
    match A, hap, hal, hall with
    | [], _, hal, _ => rw [List.length_nil] at hal; omega
    | [_], _, hal, _ => rw [List.length_singleton] at hal; omega
    | a :: b :: _, hap, _, hall =>
      exact ((List.pairwise_cons.1 hap).1 b List.mem_cons_self).ne
        ((hall a List.mem_cons_self).trans (hall b (List.mem_cons_of_mem _ List.mem_cons_self)).symm)

example : ∃ st, runOps cutEnv .empty exampleOps = .ok st ∧ 2 ≤ st.kd.length :=
  ⟨_, rfl, by decide +kernel⟩

/-! ## C57 -/

/-- C57 is violated for every range with entries, of every store that has not been restarted yet: its summary, which could be computed before,
ends the process after restarting (if digests are never empty). -/
theorem C57_violated_always (env : StoreEnv) (he : EnvOk env) (hne : ∀ b, env.hash b ≠ []) (ops : List StoreOp)
    (hf : ∀ op ∈ ops, FineOp env op) (hw : .restart ∉ ops) (r : Range3d) :
    ∃ st st', runOps env .empty ops = .ok st ∧ restart env (fun kv => kv) st = .ok st' ∧
      (∃ n, summarise env.lib st.kd r = .ok ([], n)) ∧
      ((∃ k ∈ st.kd, InRange3d r k.pos) → summarise env.lib st'.kd r = .crash) := by
  obtain ⟨st, st', h1, h2, -, h3⟩ := C57_summary_partial env he hne ops hf r
  refine ⟨st, st', h1, h2, ?_, h3⟩
  have hm := unmarked_run he ops hf hw (st := .empty) ⟨(fun e he => nomatch he), (fun k hk => nomatch hk)⟩ h1
  obtain ⟨n, hn, -⟩ := summarise_ok env.lib st.kd r fun k hk _ => hm.2 k hk
  exact ⟨n, hn⟩

example : EnvOk cutEnv ∧ (∀ b, cutEnv.hash b ≠ []) ∧ (∀ op ∈ exampleOps.take 3, FineOp cutEnv op) ∧ StoreOp.restart ∉ exampleOps.take 3 :=
  ⟨cutEnv_ok, fun b h => by simp [cutEnv] at h, fun op h => example_fine op (List.mem_of_mem_take h), by simp [exampleOps, put]⟩

end Willow.Props
