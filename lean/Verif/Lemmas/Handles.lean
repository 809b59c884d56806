import Verif.Spec.Handles

/-! Lemmas about Go maps and handle stores. -/

namespace Willow

open Spec

section
variable {κ α : Type} [DecidableEq κ]

theorem GoMap.get_filter_ne (m : GoMap κ α) (k k' : κ) :
    GoMap.get (m.filter fun e => e.1 ≠ k) k' = if k' = k then none else m.get k' := by
  induction m with
  | nil => simp [GoMap.get]
  | cons e m ih =>
    obtain ⟨a, v⟩ := e
    by_cases h : a = k
    · subst h
      rw [List.filter_cons_of_neg (by simp), ih]
      by_cases h' : k' = a
      · simp [h']
      · simp [h', GoMap.get, Ne.symm h']
    · rw [List.filter_cons_of_pos (by simpa using h)]
      simp only [GoMap.get, ih]
      by_cases h' : a = k'
      · subst h'; simp [h]
      · simp [h']

theorem GoMap.get_set (m : GoMap κ α) (k k' : κ) (v : α) :
    (m.set k v).get k' = if k' = k then some v else m.get k' := by
  unfold GoMap.set
  simp only [GoMap.get, GoMap.get_filter_ne]
  by_cases h : k = k'
  · simp [h]
  · simp [h, Ne.symm h]

theorem GoMap.get_delete (m : GoMap κ α) (k k' : κ) :
    (m.delete k).get k' = if k' = k then none else m.get k' := GoMap.get_filter_ne m k k'

end

variable {α : Type}

/-- The store after the calls of a history (the latest first). -/
def HandleStore.after : List (HandleOp α) → HandleStore α
  | [] => .empty
  | op :: past => (after past).step op

theorem HandleStore.run_eq_after (past : List (HandleOp α)) : HandleStore.run past.reverse = HandleStore.after past := by
  induction past with
  | nil => rfl
  | cons op past ih =>
    unfold HandleStore.run at ih ⊢
    rw [List.reverse_cons, List.foldl_append, ih]
    rfl

theorem asked_bound {n : Nat} {past : List (HandleOp α)} (h : asked n past = true) : n < bound past := by
  induction past with
  | nil => simp [asked] at h
  | cons op past ih =>
    cases op <;> simp only [asked, bound, Bool.or_eq_true, Bool.and_eq_true, decide_eq_true_eq] at h ⊢
    · have := ih h; omega
    · exact ih h
    · rcases h with h | h
      · exact h.2
      · exact ih h
    · exact ih h
    · exact ih h

theorem outstanding_unbound {n : Nat} {past : List (HandleOp α)} (h : bound past ≤ n) : outstanding n past = 0 := by
  induction past with
  | nil => rfl
  | cons op past ih =>
    cases op <;> simp only [outstanding, bound] at h ⊢
    · exact ih (by omega)
    · exact ih h
    · exact ih h
    · rw [ih h, if_neg (by omega)]; rfl
    · rw [ih h, if_neg (by omega)]; rfl

theorem gone_bound {n : Nat} {past : List (HandleOp α)} (h : gone n past = true) : n < bound past := by
  induction past with
  | nil => simp [gone] at h
  | cons op past ih =>
    simp only [gone, Bool.or_eq_true, Bool.and_eq_true] at h
    rcases h with h | h
    · have := ih h
      cases op <;> simp only [bound] <;> omega
    · exact asked_bound h.1

/-- What the history says is stored for a handle. -/
structure Described (past : List (HandleOp α)) (h : UInt64) (o : Option (HandleTriple α)) : Prop where
  live : h.toNat < bound past → gone h.toNat past = false →
    ∃ v, lastValue h.toNat past = some v ∧ o = some ⟨v, asked h.toNat past, outstanding h.toNat past⟩ ∧
      0 ≤ outstanding h.toNat past ∧ (asked h.toNat past = true → outstanding h.toNat past ≠ 0)
  dead : ¬ (h.toNat < bound past ∧ gone h.toNat past = false) → o = none

theorem handle_inv (past : List (HandleOp α)) (hb : bound past < 2 ^ 64) (hw : wellBehaved past) :
    (HandleStore.after past).least = UInt64.ofNat (bound past) ∧
    ∀ h, Described past h ((HandleStore.after past).map.get h) := by
  induction past with
  | nil => exact ⟨rfl, fun h => ⟨by simp [bound], fun _ => rfl⟩⟩
  | cons op past ih =>
    have hb' : bound past < 2 ^ 64 := by cases op <;> simp only [bound] at hb <;> omega
    have hw' : wellBehaved past := by
      cases op <;> simp only [wellBehaved] at hw
      all_goals first | exact hw | exact hw.2
    obtain ⟨ihl, ihd⟩ := ih hb' hw'
    simp only [HandleStore.after]
    generalize HandleStore.after past = s at ihl ihd
    have hge := fun n => @gone_bound α n past
    have hab := fun n => @asked_bound α n past
    have hou := fun n => @outstanding_unbound α n past
    cases op with
    | bind v =>
      refine ⟨by simp [HandleStore.step, HandleStore.bind, ihl, bound], fun h => ?_⟩
      simp only [HandleStore.step, HandleStore.bind, GoMap.get_set]
      obtain ⟨d1, d2⟩ := ihd h
      have hn : h = s.least ↔ h.toNat = bound past := by
        rw [← UInt64.toNat_inj, ihl, UInt64.toNat_ofNat']
        have : bound past % 2 ^ 64 = bound past := Nat.mod_eq_of_lt hb'
        rw [this]
      have hg := hge h.toNat
      have ha := hab h.toNat
      have ho := hou h.toNat
      by_cases e : h.toNat = bound past
      · have ha' : asked h.toNat past = false := by
          cases hc : asked h.toNat past with
          | false => rfl
          | true => have := ha hc; omega
        have hg' : gone h.toNat past = false := by
          cases hc : gone h.toNat past with
          | false => rfl
          | true => have := hg hc; omega
        have ho' : outstanding h.toNat past = 0 := ho (by omega)
        rw [if_pos (hn.2 e)]
        constructor <;> simp only [bound, gone, asked, outstanding, lastValue, ha', hg', ho']
        · exact fun _ _ => ⟨v, by rw [if_pos e.symm], rfl, Int.le_refl _, by simp⟩
        · intro hc; exact absurd ⟨by omega, by simp⟩ hc
      · rw [if_neg (fun hc => e (hn.1 hc))]
        constructor <;> simp only [bound, gone, asked, outstanding, lastValue, if_neg (Ne.symm e)] <;> grind
    | update h0 v =>
      have d0 := ihd h0
      simp only [HandleStore.step, HandleStore.update]
      constructor
      · cases s.map.get h0 <;> exact ihl
      intro h
      obtain ⟨d1, d2⟩ := ihd h
      have hn : h = h0 ↔ h0.toNat = h.toNat := by rw [← UInt64.toNat_inj]; exact eq_comm
      cases e : s.map.get h0 with
      | none =>
        constructor <;> simp only [bound, gone, asked, outstanding, lastValue, Option.getD_none] <;> grind
      | some t =>
        simp only [Option.getD_some, GoMap.get_set]
        constructor <;> simp only [bound, gone, asked, outstanding, lastValue] <;> grind
    | free h0 =>
      simp only [HandleStore.step, HandleStore.free]
      constructor
      · cases s.map.get h0 with
        | none => exact ihl
        | some t => dsimp only; split <;> exact ihl
      intro h
      obtain ⟨d1, d2⟩ := ihd h
      have hn : h = h0 ↔ h0.toNat = h.toNat := by rw [← UInt64.toNat_inj]; exact eq_comm
      have d0 := ihd h0
      obtain ⟨e1, e2⟩ := d0
      cases e : s.map.get h0 with
      | none =>
        constructor <;> simp only [bound, gone, asked, outstanding, lastValue, Option.getD_none] <;> grind
      | some t =>
        dsimp only
        split <;> simp only [Option.getD_some, GoMap.get_set, GoMap.get_delete]
        all_goals constructor <;> simp only [bound, gone, asked, outstanding, lastValue] <;> grind
    | increment h0 =>
      simp only [HandleStore.step, HandleStore.increment]
      constructor
      · cases s.map.get h0 <;> exact ihl
      intro h
      obtain ⟨d1, d2⟩ := ihd h
      have hn : h = h0 ↔ h0.toNat = h.toNat := by rw [← UInt64.toNat_inj]; exact eq_comm
      cases e : s.map.get h0 with
      | none =>
        obtain ⟨e1, e2⟩ := ihd h0
        constructor <;> simp only [bound, gone, asked, outstanding, lastValue, Option.getD_none] <;> grind
      | some t =>
        simp only [Option.getD_some, GoMap.get_set]
        constructor <;> simp only [bound, gone, asked, outstanding, lastValue] <;> grind
    | decrement h0 =>
      simp only [wellBehaved] at hw
      have hpos := hw.1
      simp only [HandleStore.step, HandleStore.decrement]
      constructor
      · cases s.map.get h0 with
        | none => exact ihl
        | some t => dsimp only; split <;> exact ihl
      intro h
      obtain ⟨d1, d2⟩ := ihd h
      obtain ⟨e1, e2⟩ := ihd h0
      have hn : h = h0 ↔ h0.toNat = h.toNat := by rw [← UInt64.toNat_inj]; exact eq_comm
      cases e : s.map.get h0 with
      | none =>
        constructor <;> simp only [bound, gone, asked, outstanding, lastValue, Option.getD_none] <;> grind
      | some t =>
        have hl : h0.toNat < bound past ∧ gone h0.toNat past = false := by
          apply Classical.byContradiction
          intro hc
          rw [e2 hc] at e
          cases e
        obtain ⟨v, v1, v2, v3, v4⟩ := e1 hl.1 hl.2
        rw [e] at v2
        cases v2
        have hp := hpos hl.1 hl.2
        dsimp only
        by_cases hh : h = h0
        · subst hh
          split <;> simp only [Option.getD_some, GoMap.get_set, GoMap.get_delete, if_true]
          · rename_i hc
            constructor <;> simp only [bound, gone, asked, outstanding, lastValue, hl.1, hc.1, true_and, and_true, if_true, hc.2] <;> grind
          · rename_i hc
            constructor <;> simp only [bound, gone, asked, outstanding, lastValue, hl.1, hl.2, true_and, and_true, if_true]
            · refine fun _ _ => ⟨v, v1, rfl, by omega, fun ha hz => hc ⟨ha, hz⟩⟩
            · intro hc'
              refine absurd ?_ hc'
              cases ha : asked h.toNat past with
              | false => simp
              | true =>
                have hz : outstanding h.toNat past - 1 ≠ 0 := fun hz => hc ⟨ha, hz⟩
                simp [hz]
        · have hne : h0.toNat ≠ h.toNat := fun hc => hh (hn.2 hc)
          split <;> simp only [Option.getD_some, GoMap.get_set, GoMap.get_delete, if_neg hh]
          all_goals constructor <;> simp only [bound, gone, asked, outstanding, lastValue, hne, false_and, if_false] <;> grind

end Willow
