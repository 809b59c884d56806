import Verif.Lemmas.Concurrent
import Verif.Lemmas.StoreRun

/-! Lemmas for the theorems of `Verif/Props/Concurrent.lean`: calls under way come to their end. -/

namespace Willow

open Spec

/-- How many steps a call still takes at most. -/
def CallStage.left : CallStage → Nat
  | .start _ => 4
  | .written _ _ => 3
  | .ingested _ _ => 2
  | .counted _ _ => 1
  | .done _ => 0

/-- The store and the calls are such that a step goes well. -/
structure Ready (env : StoreEnv) (stages : List CallStage) (st : StoreState) : Prop where
  abs : ∃ A leak, Abs env st A leak
  unlocked : st.locked = false
  start : ∀ (i : Nat) (c : StoreCall), stages[i]? = some (.start c) → FineOp env (asOp c)
  written : ∀ (i : Nat) (e : Entry) (t : Bytes), stages[i]? = some (.written e t) →
    Comfortable env.p e.path ∧ e.payloadDigest.length < 2 ^ 64

theorem Ready.set {env : StoreEnv} {stages : List CallStage} {st st' : StoreState} (h : Ready env stages st) {i : Nat} {x : CallStage}
    (habs : ∃ A leak, Abs env st' A leak) (hu : st'.locked = false) (hs : ∀ c, x ≠ .start c)
    (hw : ∀ e t, x = .written e t → Comfortable env.p e.path ∧ e.payloadDigest.length < 2 ^ 64) :
    Ready env (stages.set i x) st' := by
  refine ⟨habs, hu, fun j c hj => ?_, fun j e t hj => ?_⟩
  all_goals
    rw [List.getElem?_set] at hj
    split at hj
    · split at hj
      · have := Option.some.inj hj
        first
          | exact absurd this (hs _)
          | exact hw _ _ this
      · cases hj
    · first
        | exact h.start _ _ hj
        | exact h.written _ _ _ hj

theorem Ready.step {env : StoreEnv} (he : EnvOk env) {stages : List CallStage} {st : StoreState} (h : Ready env stages st) {i : Nat}
    {x : CallStage} (hx : stages[i]? = some x) (hc : ∀ d p, x = .ingested d p → Counted st.refs d) :
    ∃ x' st', advance env st x = .ok (x', st') ∧ x'.left ≤ x.left - 1 ∧ Ready env (stages.set i x') st' := by
  obtain ⟨A, leak, habs⟩ := h.abs
  cases x with
  | start c =>
    have hf := h.start i c hx
    cases c with
    | set now input au =>
      simp only [advance]
      cases hau : env.authorise (setEntry env now input) au with
      | none => exact ⟨_, _, rfl, by simp [CallStage.left], h.set ⟨A, leak, habs.ofSame rfl rfl rfl⟩ h.unlocked (by simp) (by simp)⟩
      | some token =>
        refine ⟨_, _, rfl, by simp [CallStage.left], h.set ⟨A, leak, habs.ofSame rfl rfl rfl⟩ h.unlocked (by simp) fun e t ht => ?_⟩
        cases ht
        refine hf (setEntry env now input) token ?_
        show (env.authorise (setEntry env now input) au).map (fun token => (setEntry env now input, token)) = _
        rw [hau]
        rfl
    | ingest e token =>
      obtain ⟨hcf, hd⟩ := hf e token rfl
      obtain ⟨r, st', h1, h2, h3, _⟩ := ingest_ok he habs h.unlocked e token hcf hd
      simp only [advance, h1]
      exact ⟨_, _, rfl, by simp [CallStage.left], h.set ⟨_, _, h2⟩ h3 (by simp) (by simp)⟩
  | written e token =>
    obtain ⟨hcf, hd⟩ := h.written i e token hx
    obtain ⟨r, st', h1, h2, h3, _⟩ := ingest_ok he habs h.unlocked e token hcf hd
    simp only [advance, h1]
    cases r with
    | none => exact ⟨_, _, rfl, by simp [CallStage.left], h.set ⟨_, _, h2⟩ h3 (by simp) (by simp)⟩
    | some l => exact ⟨_, _, rfl, by simp [CallStage.left], h.set ⟨_, _, h2⟩ h3 (by simp) (by simp)⟩
  | ingested d p =>
    obtain ⟨c, hcc⟩ := hc d p rfl
    simp only [advance, hcc]
    refine ⟨_, _, rfl, by split <;> simp [CallStage.left], h.set h.abs h.unlocked ?_ ?_⟩
    · intro c; split <;> simp
    · intro e t ht; split at ht <;> cases ht
  | counted d p => exact ⟨_, _, rfl, by simp [CallStage.left], h.set ⟨A, leak, habs.ofSame rfl rfl rfl⟩ h.unlocked (by simp) (by simp)⟩
  | done r => exact ⟨_, _, rfl, by simp [CallStage.left], h.set h.abs h.unlocked (by simp) (by simp)⟩

/-- Any schedule goes well, and each turn brings a call nearer to its end. -/
theorem Ready.run_on {env : StoreEnv} (he : EnvOk env) {st0 : StoreState} {calls : List StoreCall} : ∀ (schedule : List Nat)
    {stages : List CallStage} {st : StoreState} {order : List Nat} {rs : List (Option (List Entry))} {s : StoreState},
    Ready env stages st → Going env st0 calls stages st order rs s →
    ∃ stages' st', runTogether env schedule stages st = .ok (stages', st') ∧ stages'.length = stages.length ∧ Ready env stages' st' ∧
      ∀ (i : Nat) (x : CallStage), stages[i]? = some x → ∃ x', stages'[i]? = some x' ∧ x'.left ≤ x.left - schedule.count i
  | [], stages, st, order, rs, s, h, _ => ⟨stages, st, rfl, rfl, h, fun i x hx => ⟨x, hx, by simp⟩⟩
  | i :: schedule, stages, st, order, rs, s, h, hg => by
    simp only [runTogether]
    cases hx : stages[i]? with
    | none =>
      obtain ⟨stages', st', h1, h2, hrd, h3⟩ := Ready.run_on he schedule h hg
      refine ⟨stages', st', h1, h2, hrd, fun j x hj => ?_⟩
      have hij : i ≠ j := fun e => by rw [e, hj] at hx; cases hx
      rw [List.count_cons, if_neg (by simpa using hij)]
      exact h3 j x hj
    | some x =>
      obtain ⟨x1, st1, h1, h2, h3⟩ := h.step he hx fun d p hd => by subst hd; exact (hg.ingested i d p hx).1
      obtain ⟨more, rs1, s1, hg1⟩ := hg.step hx h1
      obtain ⟨stages', st', h4, h5, hrd, h6⟩ := Ready.run_on he schedule h3 hg1
      dsimp only
      rw [h1]
      refine ⟨stages', st', h4, by rw [h5, List.length_set], hrd, fun j y hj => ?_⟩
      by_cases hij : i = j
      · subst hij
        rw [hx] at hj
        cases hj
        obtain ⟨x', h7, h8⟩ := h6 i x1 (by rw [List.getElem?_set, if_pos rfl, if_pos (List.getElem?_eq_some_iff.1 hx).1])
        refine ⟨x', h7, ?_⟩
        rw [List.count_cons, if_pos (by simp)]
        omega
      · obtain ⟨x', h7, h8⟩ := h6 j y (by rw [List.getElem?_set, if_neg hij]; exact hj)
        refine ⟨x', h7, ?_⟩
        rw [List.count_cons, if_neg (by simpa using hij)]
        exact h8

theorem left_zero {x : CallStage} (h : x.left ≤ 0) : ∃ r, x = .done r := by
  cases x <;> simp [CallStage.left] at h ⊢

/-- A list without repetitions of numbers below `n` with all of them. -/
theorem perm_range {l : List Nat} {n : Nat} (h1 : l.Nodup) (h2 : ∀ i ∈ l, i < n) (h3 : ∀ i < n, i ∈ l) : l.Perm (List.range n) := by
  rw [List.perm_ext_iff_of_nodup h1 List.nodup_range]
  intro i
  rw [List.mem_range]
  exact ⟨h2 i, h3 i⟩

end Willow
