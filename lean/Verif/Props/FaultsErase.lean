import Verif.Lemmas.FaultsErase
import Verif.Props.Faults

/-! C136: entries stored while no file can be removed. -/

namespace Willow.Props

open Willow Spec

/-- C136 is violated by every entry that replaces or prunes another, while files cannot be removed: after any fine calls the call succeeds and stores
the entry, the other entry is gone, and the file of its payload is still there, even if no entry has that payload any more; nothing is reported. -/
theorem C136_violated_erase (env : StoreEnv) (he : EnvOk env) (ops : List StoreOp) (hf : ∀ o ∈ ops, FineOp env o) (op : StoreOp) (hop : FineOp env op)
    (e : Entry) (token : Bytes) (hat : attempt env op = some (e, token)) (hacc : Acceptable env (specRun env [] ops) e token)
    (old : Item) (ho : old ∈ specRun env [] ops) (hpr : Displaces e.position old.pos)
    (hfile : ∀ st, runOps env .empty ops = .ok st → st.files.get (env.fileKey old.val.payloadDigest) ≠ none) :
    ∃ st pruned st', runOps env .empty ops = .ok st ∧ runOpF { erase := true } env st op = .ok (some pruned, st') ∧
      (∀ a : Item, Proper env.p a → (Holds env st' a.pos a.val ↔ a ∈ specRun env [] (ops ++ [op]))) ∧ ¬ Holds env st' old.pos old.val ∧
      st'.files.get (env.fileKey old.val.payloadDigest) ≠ none := by
  obtain ⟨st, h1, h2, h3⟩ := run_ok he ops hf
  obtain ⟨hc, hd⟩ := hop e token hat
  obtain ⟨r, st1, r1, r2, _, r4⟩ := runOp_ok he h2 h3 op hop
  have hsome : ∃ pruned, r = some pruned := by
    unfold ResultOk at r4
    rw [hat] at r4
    dsimp only at r4
    rw [if_pos hacc] at r4
    cases r with
    | none => simp at r4
    | some p => exact ⟨p, rfl⟩
  obtain ⟨pruned, rfl⟩ := hsome
  have hne : op ≠ .restart := by rintro rfl; cases hat
  have ha := runOpF_alike { erase := true } rfl rfl rfl rfl rfl env st op
  rw [r1] at ha
  generalize hq : runOpF { erase := true } env st op = q at ha
  cases ha with
  | @ok _ st' _ ha =>
    have hspec : specRun env [] (ops ++ [op]) = specStep env (specRun env [] ops) op := by
      simp only [specRun_append, specRun]
    have hiff : ∀ a : Item, Proper env.p a → (Holds env st' a.pos a.val ↔ a ∈ specRun env [] (ops ++ [op])) := by
      intro a hp
      unfold Holds
      rw [ha.1, ha.2.1, hspec]
      exact r2.core.holds he hp
    refine ⟨st, pruned, st', h1, hq, hiff, ?_, runOpF_present rfl hne (hfile st h1) hq⟩
    have hold := h2.core.fine old ho
    rw [hiff old ⟨hold.path.valid, hold.digest, hold.auth⟩, hspec]
    unfold specStep
    rw [hat]
    dsimp only
    rw [if_pos hacc]
    intro hm
    rcases List.mem_cons.1 hm with rfl | hm
    · -- the same position cannot be accepted
      have hnacc := mt not_accepts.2 (Classical.not_not.2 hacc.2.2)
      rw [not_or] at hnacc
      exact hnacc.2 ⟨_, ho, rfl, rfl, UInt64.le_refl _⟩
    · exact of_decide_eq_true (List.mem_filter.1 hm).2 hpr

/-- The file of a payload that no entry has stays; without failures it is removed. -/
example : Acceptable cutEnv (specRun cutEnv [] [put [[1]] 4 [9]]) (setEntry cutEnv 0 ⟨[7], [[1]], 5, [8]⟩) [7] ∧
    Displaces ⟨[7], [[1]], 5⟩ ⟨[7], [[1]], 4⟩ ∧
    ∃ w, (runOps cutEnv .empty [put [[1]] 4 [9]] >>= fun st => runOpF { erase := true } cutEnv st (put [[1]] 5 [8]) >>= fun a =>
        runOpF {} cutEnv st (put [[1]] 5 [8]) >>= fun b => Res.ok (st, a.2, b.2)) = .ok w ∧
      w.1.files.get [1, 9] = some [9] ∧ w.2.1.kv.length = 1 ∧ w.2.1.files.get [1, 9] = some [9] ∧ w.2.2.files.get [1, 9] = none :=
  ⟨by decide +kernel, by decide +kernel, exists_ok (by decide +kernel)⟩

end Willow.Props
