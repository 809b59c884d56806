import Verif.Lemmas.StoreRun
import Verif.Props.Listing
import Verif.Spec.PropsStore

/-! Lemmas for the theorems of `Verif/Props/Store.lean`. -/

namespace Willow.Props

open Willow Spec

/-- Digests in the examples are shorter than 2^64 bytes only for payloads that are; so examples
use this configuration, whose digest keeps the first 100 bytes, and limits with room for
paths of several components. -/
def cutEnv : StoreEnv :=
  { testEnv listLib with p := { bits := 8, cc := 4, cl := 4, pl := 12 }, hash := fun b => 1 :: b.take 100 }

theorem cutEnv_ok : EnvOk cutEnv :=
  ⟨by decide, by decide, fun b => by simp [cutEnv]; omega⟩

theorem cut_fine (path : Path) (t : UInt64) (payload : Bytes) (hc : Comfortable cutEnv.p path) :
    FineOp cutEnv (put path t payload) := by
  intro e token h
  simp only [put, attempt, cutEnv, testEnv, Option.map_some, Option.some.injEq, Prod.mk.injEq] at h
  obtain ⟨rfl, _⟩ := h
  exact ⟨hc, by simp; omega⟩

theorem cut_comfortable (path : Path) (h : ValidPath cutEnv.p path) (h1 : path ≠ [])
    (h3 : pathBytes path < 12) (h4 : ∀ c ∈ path.getLast?, c.length < 4) : Comfortable cutEnv.p path :=
  .of_last h h1 h3 fun c hc => h4 c hc

/-- The calls of the examples. -/
def exampleOps : List StoreOp := [put [[1], [2]] 5 [9], put [[1]] 6 [8], put [[3]] 6 [8], .restart, put [[1]] 7 [8]]

theorem example_fine : ∀ op ∈ exampleOps, FineOp cutEnv op := by
  have h12 : Comfortable cutEnv.p [[1], [2]] :=
    cut_comfortable _ ⟨by decide, by decide, by decide⟩ (by decide) (by decide) (by decide)
  have h1 : Comfortable cutEnv.p [[1]] :=
    cut_comfortable _ ⟨by decide, by decide, by decide⟩ (by decide) (by decide) (by decide)
  have h3 : Comfortable cutEnv.p [[3]] :=
    cut_comfortable _ ⟨by decide, by decide, by decide⟩ (by decide) (by decide) (by decide)
  simp only [exampleOps, List.forall_mem_cons, List.not_mem_nil, false_implies, implies_true, and_true]
  exact ⟨cut_fine _ _ _ h12, cut_fine _ _ _ h1, cut_fine _ _ _ h3, fun e t h => by simp [attempt] at h, cut_fine _ _ _ h1⟩

theorem pruningComplete_afterInsert {A : List Item} {new : Item} (h : PruningComplete A) (ha : Accepts A new.pos) :
    PruningComplete (afterInsert A new) := by
  intro a hA b hB hs hp hne hlt
  unfold afterInsert at hA hB
  rcases List.mem_cons.1 hA with rfl | hA
  · rcases List.mem_cons.1 hB with rfl | hB
    · exact hne rfl
    · have := (List.mem_filter.1 hB).2
      simp only [decide_eq_true_eq] at this
      exact this (.inr ⟨hs.symm, hp, fun e => hne e.symm, hlt⟩)
  · have hA' := (List.mem_filter.1 hA).1
    rcases List.mem_cons.1 hB with rfl | hB
    · have := ha a hA' hs hp
      simp only [UInt64.lt_iff_toNat_lt] at *
      omega
    · exact h a hA' b (List.mem_filter.1 hB).1 hs hp hne hlt

theorem pruningComplete_specRun (env : StoreEnv) : ∀ (ops : List StoreOp) (A : List Item), PruningComplete A →
    PruningComplete (specRun env A ops)
  | [], _, h => h
  | op :: ops, A, h => by
    refine pruningComplete_specRun env ops _ ?_
    unfold specStep
    cases attempt env op with
    | none => exact h
    | some et =>
      dsimp only
      split
      · rename_i hacc
        exact pruningComplete_afterInsert h hacc.2.2
      · exact h

theorem stays_specStep {env : StoreEnv} {A : List Item} {a : Item} (ha : a ∈ A) (op : StoreOp)
    (hno : ∀ e token, attempt env op = some (e, token) → e.subspaceId = a.pos.subspace → e.path <+: a.pos.path → e.timestamp ≤ a.pos.time) :
    a ∈ specStep env A op := by
  unfold specStep
  cases hat : attempt env op with
  | none => exact ha
  | some et =>
    obtain ⟨e, token⟩ := et
    dsimp only
    split
    · rename_i hacc
      unfold afterInsert
      refine List.mem_cons_of_mem _ (List.mem_filter.2 ⟨ha, ?_⟩)
      rw [decide_eq_true_eq]
      rintro (⟨hs, hp⟩ | ⟨hs, hp, _, ht⟩)
      · have h1 := hacc.2.2 a ha hs (by rw [hp]; exact List.prefix_refl _)
        have h2 := hno e token hat hs.symm (by rw [hp]; exact List.prefix_refl _)
        exact absurd h1 (UInt64.not_lt.2 h2)
      · exact absurd ht (UInt64.not_lt.2 (hno e token hat hs.symm hp))
    · exact ha

theorem stays_specRun {env : StoreEnv} {a : Item} : ∀ (ops : List StoreOp) (A : List Item), a ∈ A →
    (∀ op ∈ ops, ∀ e token, attempt env op = some (e, token) → e.subspaceId = a.pos.subspace → e.path <+: a.pos.path →
      e.timestamp ≤ a.pos.time) → a ∈ specRun env A ops
  | [], _, ha, _ => ha
  | op :: ops, A, ha, hno =>
    stays_specRun ops _ (stays_specStep ha op (hno op List.mem_cons_self)) fun o ho => hno o (List.mem_cons_of_mem _ ho)

theorem authDigest_specRun (env : StoreEnv) : ∀ (ops : List StoreOp) (A : List Item), (∀ a ∈ A, ∃ t, a.val.authDigest = env.hash t) →
    ∀ a ∈ specRun env A ops, ∃ t, a.val.authDigest = env.hash t
  | [], _, h => h
  | op :: ops, A, h => by
    refine authDigest_specRun env ops _ ?_
    unfold specStep
    cases attempt env op with
    | none => exact h
    | some et =>
      obtain ⟨e, token⟩ := et
      dsimp only
      split
      · intro a ha
        rcases List.mem_cons.1 ha with rfl | ha
        · exact ⟨_, rfl⟩
        · exact h a (List.mem_filter.1 ha).1
      · exact h

theorem mem_those {α : Type} {P : α → Prop} {l : List α} {a : α} : a ∈ those P l ↔ a ∈ l ∧ P a := by
  unfold those
  rw [List.mem_filter]
  simp

end Willow.Props
