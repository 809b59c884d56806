import Verif.Lemmas.PropsHandles
import Verif.Spec.HandlePairs

/-! Lemmas for the theorems of `Verif/Props/HandlePairs.lean`. -/

namespace Willow

open Spec Props

variable {α : Type}

theorem HandleStore.step_least (s : HandleStore α) (op : HandleOp α) :
    (s.step op).least = match op with | .bind _ => s.least + 1 | _ => s.least := by
  cases op <;> simp only [HandleStore.step, HandleStore.bind, HandleStore.update, HandleStore.free, HandleStore.increment, HandleStore.decrement] <;>
    (try rfl) <;> (repeat' split) <;> rfl

theorem HandleStore.handed_eq (ops : List (HandleOp α)) : ∀ (s : HandleStore α) (n : Nat), s.least = UInt64.ofNat n →
    s.handed ops = ((boundValues ops).zipIdx n).map fun x => (UInt64.ofNat x.2, x.1) := by
  induction ops with
  | nil => intro s n h; rfl
  | cons op ops ih =>
    intro s n h
    cases op with
    | bind v =>
      simp only [HandleStore.handed, boundValues, List.zipIdx_cons, List.map_cons]
      rw [ih (s.bind v).2 (n + 1) (by simp [HandleStore.bind, h, UInt64.ofNat_add])]
      simp [HandleStore.bind, h]
    | update a v => simp only [HandleStore.handed, boundValues]; exact ih _ n ((HandleStore.step_least s _).trans h)
    | free a => simp only [HandleStore.handed, boundValues]; exact ih _ n ((HandleStore.step_least s _).trans h)
    | increment a => simp only [HandleStore.handed, boundValues]; exact ih _ n ((HandleStore.step_least s _).trans h)
    | decrement a => simp only [HandleStore.handed, boundValues]; exact ih _ n ((HandleStore.step_least s _).trans h)

/-- What a call does to a handle that it is not about. -/
theorem HandleStore.step_other (s : HandleStore α) (op : HandleOp α) (h : UInt64)
    (hh : match op with | .bind _ => h ≠ s.least | op => about op ≠ some h) : (s.step op).map.get h = s.map.get h := by
  cases op with
  | bind v => simp only [HandleStore.step, HandleStore.bind, GoMap.get_set]; rw [if_neg hh]
  | update a v =>
    have hne : h ≠ a := by rintro rfl; exact hh rfl
    simp only [HandleStore.step, HandleStore.update]
    split
    · rfl
    · simp only [Option.getD_some, GoMap.get_set, if_neg hne]
  | free a =>
    have hne : h ≠ a := by rintro rfl; exact hh rfl
    simp only [HandleStore.step, HandleStore.free]
    split
    · rfl
    · split <;> simp only [Option.getD_some, GoMap.get_set, GoMap.get_delete, if_neg hne]
  | increment a =>
    have hne : h ≠ a := by rintro rfl; exact hh rfl
    simp only [HandleStore.step, HandleStore.increment]
    split
    · rfl
    · simp only [Option.getD_some, GoMap.get_set, if_neg hne]
  | decrement a =>
    have hne : h ≠ a := by rintro rfl; exact hh rfl
    simp only [HandleStore.step, HandleStore.decrement]
    split
    · rfl
    · split <;> simp only [Option.getD_some, GoMap.get_set, GoMap.get_delete, if_neg hne]

/-- A call that neither binds nor updates gives no handle another value. -/
theorem HandleStore.step_value (s : HandleStore α) (op : HandleOp α) (h : UInt64) (v : α)
    (hb : ∀ w, op ≠ .bind w) (hu : ∀ w, op ≠ .update h w) (hg : (s.step op).get h = some v) : s.get h = some v := by
  by_cases ha : about op = some h
  · unfold HandleStore.get at hg ⊢
    cases op with
    | bind w => exact absurd rfl (hb w)
    | update a w => simp only [about, Option.some.injEq] at ha; subst ha; exact absurd rfl (hu w)
    | free a =>
      simp only [about, Option.some.injEq] at ha; subst ha
      simp only [HandleStore.step, HandleStore.free] at hg
      split at hg
      · exact hg
      · rename_i t ht
        rw [ht]
        split at hg <;> simpa only [Option.getD_some, GoMap.get_set, GoMap.get_delete, if_true, Option.map_some, Option.map_none, reduceCtorEq] using hg
    | increment a =>
      simp only [about, Option.some.injEq] at ha; subst ha
      simp only [HandleStore.step, HandleStore.increment] at hg
      split at hg
      · exact hg
      · rename_i t ht
        rw [ht]
        simpa only [Option.getD_some, GoMap.get_set, if_true, Option.map_some] using hg
    | decrement a =>
      simp only [about, Option.some.injEq] at ha; subst ha
      simp only [HandleStore.step, HandleStore.decrement] at hg
      split at hg
      · exact hg
      · rename_i t ht
        rw [ht]
        split at hg <;> simpa only [Option.getD_some, GoMap.get_set, GoMap.get_delete, if_true, Option.map_some, Option.map_none, reduceCtorEq] using hg
  · unfold HandleStore.get at hg ⊢
    rwa [HandleStore.step_other s op h (by cases op <;> first | exact absurd rfl (hb _) | exact ha)] at hg

theorem boundValues_append (a b : List (HandleOp α)) : boundValues (a ++ b) = boundValues a ++ boundValues b := by
  induction a with
  | nil => rfl
  | cons op a ih => cases op <;> simp [boundValues, ih]

theorem boundValues_length (past : List (HandleOp α)) : (boundValues past.reverse).length = bound past := by
  induction past with
  | nil => rfl
  | cons op past ih => cases op <;> simp [boundValues_append, boundValues, bound, ih]

/-- The value of a handle that was not updated is the value bound as that number. -/
theorem HandleStore.after_value (past : List (HandleOp α)) (h : UInt64) (v : α) (hb : bound past ≤ 2 ^ 64)
    (hu : ∀ w, HandleOp.update h w ∉ past) (hg : (HandleStore.after past).get h = some v) :
    (boundValues past.reverse)[h.toNat]? = some v := by
  induction past with
  | nil => simp [HandleStore.after, HandleStore.get, HandleStore.empty, GoMap.get] at hg
  | cons op past ih =>
    have hu' : ∀ w, HandleOp.update h w ∉ past := fun w hw => hu w (List.mem_cons_of_mem _ hw)
    by_cases hbind : ∃ w, op = .bind w
    · obtain ⟨w, rfl⟩ := hbind
      simp only [bound] at hb
      rw [List.reverse_cons, boundValues_append]
      simp only [boundValues]
      have hl := boundValues_length past
      by_cases he : h = (HandleStore.after past).least
      · simp only [HandleStore.after, HandleStore.step, HandleStore.bind, HandleStore.get, GoMap.get_set, if_pos he,
          Option.map_some, Option.some.injEq] at hg
        subst hg
        have : h.toNat = bound past := by
          rw [he, least_after, UInt64.toNat_ofNat']
          exact Nat.mod_eq_of_lt (by omega)
        rw [this, ← hl]
        simp
      · have : (HandleStore.after past).get h = some v := by
          unfold HandleStore.get at hg ⊢
          rwa [show HandleStore.after (HandleOp.bind w :: past) = (HandleStore.after past).step (.bind w) from rfl,
            HandleStore.step_other _ _ _ he] at hg
        have := ih (by omega) hu' this
        obtain ⟨hlt, -⟩ := List.getElem?_eq_some_iff.1 this
        rw [List.getElem?_append_left hlt]
        exact this
    · have hbind' : ∀ w, op ≠ .bind w := fun w hw => hbind ⟨w, hw⟩
      have e : bound (op :: past) = bound past := by
        cases op <;> first | exact absurd rfl (hbind' _) | rfl
      have e' : boundValues (op :: past).reverse = boundValues past.reverse := by
        rw [List.reverse_cons, boundValues_append]
        cases op <;> first | exact absurd rfl (hbind' _) | simp [boundValues]
      rw [e']
      refine ih (by omega) hu' (HandleStore.step_value _ op h v hbind' ?_ hg)
      rintro w rfl
      exact hu w List.mem_cons_self

end Willow
