import Verif.Lemmas.CrashReplaced
import Verif.Props.CrashAlways

/-! More of C111: the moment right after an entry was replaced. -/

namespace Willow.Props

open Willow Spec

/-- C111 is violated by every write that replaces an entry and has older entries below: there is a moment such that if the process ends
then, the store opened again holds the new entry, all older entries below it that it should have pruned, and all others but the
replaced one. -/
theorem C111_violated_replaced (env : StoreEnv) (he : EnvOk env) (ops : List StoreOp) (op : StoreOp)
    (hf : ∀ o ∈ ops, FineOp env o) (hop : FineOp env op) (e : Entry) (token : Bytes)
    (hat : attempt env op = some (e, token)) (hacc : Acceptable env (specRun env [] ops) e token)
    (o : Item) (ho : o ∈ specRun env [] ops) (hs : o.pos.subspace = e.subspaceId) (hp : o.pos.path = e.path)
    (old : Item) (hold : old ∈ specRun env [] ops) (hpr : Prunes e.position old.pos) :
    ∃ st n st', runOps env .empty ops = .ok st ∧ crashAfter env st op n = .ok st' ∧
      Holds env st' e.position (newItem env e token).val ∧ Holds env st' old.pos old.val ∧
      ∀ a : Item, Proper env.p a → (Holds env st' a.pos a.val ↔ a = newItem env e token ∨ (a ∈ specRun env [] ops ∧ a ≠ o)) := by
  obtain ⟨st, h1, h2, h3⟩ := run_ok he ops hf
  obtain ⟨A0, hA0⟩ : ∃ A0, (specRun env [] ops).Perm (o :: A0) := ⟨_, List.perm_cons_erase ho⟩
  obtain ⟨n, st', c1, c2⟩ := crash_replaced he h2 h3 op hop e token hat hacc o A0 hA0 hs hp
  obtain ⟨hc, hd⟩ := hop e token hat
  have hpn : Proper env.p (newItem env e token) := ⟨hc.valid, hd, he.hash _⟩
  have hin : ∀ a, a ∈ A0 ↔ a ∈ specRun env [] ops ∧ a ≠ o := by
    intro a
    have hap := List.pairwise_cons.1 (h2.core.perm hA0).apart
    rw [hA0.mem_iff, List.mem_cons]
    constructor
    · intro ha
      exact ⟨.inr ha, fun hao => hap.1 a ha (hao ▸ ⟨rfl, rfl⟩)⟩
    · rintro ⟨ha | ha, hne⟩
      · exact absurd ha hne
      · exact ha
  have hall : ∀ a : Item, Proper env.p a → (Holds env st' a.pos a.val ↔ a = newItem env e token ∨ (a ∈ specRun env [] ops ∧ a ≠ o)) :=
    fun a ha => by rw [c2.holds he ha, List.mem_cons, hin]
  refine ⟨st, n, st', h1, c1, (hall _ hpn).2 (.inl rfl), (hall _ (h2.core.fine old hold).proper).2 (.inr ⟨hold, ?_⟩), hall⟩
  rintro rfl
  exact hpr.2.2.1 hp

example : Acceptable cutEnv (specRun cutEnv [] [put [[1]] 3 [8], put [[1], [2]] 4 [9]]) ⟨[42], [7], [[1]], [1, 3], 1, 6⟩ [7] ∧
    ⟨⟨[7], [[1]], 3⟩, ⟨1, [1, 8], [1, 7]⟩⟩ ∈ specRun cutEnv [] [put [[1]] 3 [8], put [[1], [2]] 4 [9]] ∧
    ⟨⟨[7], [[1], [2]], 4⟩, ⟨1, [1, 9], [1, 7]⟩⟩ ∈ specRun cutEnv [] [put [[1]] 3 [8], put [[1], [2]] 4 [9]] ∧
    Prunes ⟨[7], [[1]], 6⟩ ⟨[7], [[1], [2]], 4⟩ :=
  ⟨by decide +kernel, by decide +kernel, by decide +kernel, by decide⟩

end Willow.Props
