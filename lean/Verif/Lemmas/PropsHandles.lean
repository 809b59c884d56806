import Verif.Lemmas.Handles

/-! Lemmas for the theorems of `Verif/Props/Handles.lean`. -/

namespace Willow.Props

open Willow Spec
variable {α : Type}

theorem bound_reverse_append (a b : List (HandleOp α)) : bound (a ++ b) = bound a + bound b := by
  induction a with
  | nil => simp [bound]
  | cons op a ih => cases op <;> simp only [List.cons_append, bound, ih] <;> omega

theorem least_after (past : List (HandleOp α)) : (HandleStore.after past).least = UInt64.ofNat (bound past) := by
  induction past with
  | nil => rfl
  | cons op past ih =>
    simp only [HandleStore.after]
    generalize HandleStore.after past = s at ih
    cases op with
    | bind v => simp [HandleStore.step, HandleStore.bind, ih, bound]
    | update h v =>
      simp only [HandleStore.step, HandleStore.update, bound]
      split <;> exact ih
    | free h =>
      simp only [HandleStore.step, HandleStore.free, bound]
      split
      · exact ih
      · split <;> exact ih
    | increment h =>
      simp only [HandleStore.step, HandleStore.increment, bound]
      split <;> exact ih
    | decrement h =>
      simp only [HandleStore.step, HandleStore.decrement, bound]
      split
      · exact ih
      · split <;> exact ih

theorem run_least (ops : List (HandleOp α)) : (HandleStore.run ops).least = UInt64.ofNat (bound ops.reverse) := by
  have := HandleStore.run_eq_after ops.reverse
  rw [List.reverse_reverse] at this
  rw [this, least_after]

theorem handle_stuck (past : List (HandleOp α)) (h : UInt64) (hw : wellBehaved past) (hh : h.toNat < bound past)
    (hg : gone h.toNat past = false) (ho : outstanding h.toNat past = 0) : ∀ more : List (HandleOp α),
    bound (more ++ .decrement h :: past) < 2 ^ 64 → HandleOp.increment h ∉ more →
    ∃ t, (HandleStore.after (more ++ .decrement h :: past)).map.get h = some t ∧ t.refCount < 0 := by
  intro more
  induction more with
  | nil =>
    intro hb _
    have hb' : bound past < 2 ^ 64 := by simpa [bound] using hb
    obtain ⟨v, -, h1, h2, h3⟩ := ((handle_inv past hb' hw).2 h).live hh hg
    have ha : asked h.toNat past = false := by
      cases hc : asked h.toNat past with
      | false => rfl
      | true => exact absurd ho (h3 hc)
    simp only [List.nil_append, HandleStore.after, HandleStore.step, HandleStore.decrement, h1, ha, ho]
    simp [GoMap.get_set]
  | cons op more ih =>
    intro hb hi
    have hb' : bound (more ++ .decrement h :: past) < 2 ^ 64 := by
      rw [List.cons_append] at hb
      cases op <;> simp only [bound] at hb <;> omega
    obtain ⟨t, h1, h2⟩ := ih hb' (fun hm => hi (List.mem_cons_of_mem _ hm))
    have hl := least_after (more ++ .decrement h :: past)
    have hle : bound past ≤ bound (more ++ .decrement h :: past) := by
      rw [bound_reverse_append]; simp only [bound]; omega
    rw [List.cons_append]
    unfold HandleStore.after
    generalize HandleStore.after (more ++ .decrement h :: past) = s at h1 hl
    cases op with
    | bind v =>
      have hne : h ≠ s.least := by
        rw [hl]; intro e
        have := congrArg UInt64.toNat e
        rw [UInt64.toNat_ofNat', Nat.mod_eq_of_lt hb'] at this
        omega
      refine ⟨t, ?_, h2⟩
      simp only [HandleStore.step, HandleStore.bind, GoMap.get_set]
      rw [if_neg hne]; exact h1
    | update h' v =>
      simp only [HandleStore.step, HandleStore.update]
      cases hm : s.map.get h' with
      | none => exact ⟨t, h1, h2⟩
      | some t' =>
        simp only [Option.getD_some, GoMap.get_set]
        by_cases e : h = h'
        · subst e; rw [h1] at hm; cases hm; rw [if_pos rfl]; exact ⟨_, rfl, h2⟩
        · rw [if_neg e]; exact ⟨t, h1, h2⟩
    | free h' =>
      simp only [HandleStore.step, HandleStore.free]
      cases hm : s.map.get h' with
      | none => exact ⟨t, h1, h2⟩
      | some t' =>
        by_cases e : h = h'
        · subst e; rw [h1] at hm; cases hm
          simp only []
          rw [if_neg (by omega)]
          simp only [Option.getD_some, GoMap.get_set, if_true]
          exact ⟨_, rfl, h2⟩
        · simp only []
          split
          · simp only [Option.getD_some, GoMap.get_delete]; rw [if_neg e]; exact ⟨t, h1, h2⟩
          · simp only [Option.getD_some, GoMap.get_set]; rw [if_neg e]; exact ⟨t, h1, h2⟩
    | increment h' =>
      have e : h ≠ h' := fun e => hi (by rw [e]; exact List.mem_cons_self)
      simp only [HandleStore.step, HandleStore.increment]
      cases hm : s.map.get h' with
      | none => exact ⟨t, h1, h2⟩
      | some t' =>
        simp only [Option.getD_some, GoMap.get_set]
        rw [if_neg e]; exact ⟨t, h1, h2⟩
    | decrement h' =>
      simp only [HandleStore.step, HandleStore.decrement]
      cases hm : s.map.get h' with
      | none => exact ⟨t, h1, h2⟩
      | some t' =>
        by_cases e : h = h'
        · subst e; rw [h1] at hm; cases hm
          simp only []
          rw [if_neg (by omega)]
          simp only [Option.getD_some, GoMap.get_set, if_true]
          exact ⟨_, rfl, by simp only; omega⟩
        · simp only []
          split
          · simp only [Option.getD_some, GoMap.get_delete]; rw [if_neg e]; exact ⟨t, h1, h2⟩
          · simp only [Option.getD_some, GoMap.get_set]; rw [if_neg e]; exact ⟨t, h1, h2⟩

end Willow.Props
