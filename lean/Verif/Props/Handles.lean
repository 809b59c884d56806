import Verif.Lemmas.PropsHandles
import Verif.Lemmas.Handles

/-! C58: handles. -/

namespace Willow.Props

open Willow Spec

variable {α : Type}

/-- C58, partial: the handle returned for a value differs from every handle returned before, and
getting it yields the value, as long as fewer than 2^64 values have been bound. Missing: more
values (see `C58_violated_reuse`). -/
theorem C58_fresh_partial (before between : List (HandleOp α)) (v w : α)
    (hb : bound (before ++ .bind v :: between).reverse < 2 ^ 64) :
    ((HandleStore.run before).bind v).1 ≠ ((HandleStore.run (before ++ .bind v :: between)).bind w).1 ∧
    ((HandleStore.run before).bind v).2.get ((HandleStore.run before).bind v).1 = some v := by
  constructor
  · unfold HandleStore.bind
    dsimp only
    rw [run_least, run_least]
    have e : bound (before ++ .bind v :: between).reverse = bound between.reverse + 1 + bound before.reverse := by
      rw [List.reverse_append, List.reverse_cons, bound_reverse_append, bound_reverse_append]
      rfl
    intro h
    have := congrArg UInt64.toNat h
    rw [UInt64.toNat_ofNat', UInt64.toNat_ofNat', Nat.mod_eq_of_lt hb, Nat.mod_eq_of_lt (by omega)] at this
    omega
  · simp [HandleStore.get, HandleStore.bind, GoMap.get_set]

example : ((HandleStore.run [.bind 5]).bind 6).1 ≠ ((HandleStore.run [.bind 5, .bind 6, .free 1]).bind 7).1 :=
  (C58_fresh_partial [.bind 5] [.free 1] 6 7 (by decide)).1

/-- C58, partial: if messages are only reported as processed after they were registered, a handle
has the value given to it last until it has been asked to be freed and no unprocessed message
refers to it; from then on it is gone; it may be used until it has been asked to be freed.
Missing: more than 2^64 values (see `C58_violated_reuse`), and messages reported as processed
that were not registered (see `C58_violated_stuck`). -/
theorem C58_life_partial (ops : List (HandleOp α)) (hb : bound ops.reverse < 2 ^ 64) (hw : wellBehaved ops.reverse) (h : UInt64) :
    (h.toNat < bound ops.reverse → gone h.toNat ops.reverse = false →
      ∃ v, lastValue h.toNat ops.reverse = some v ∧ (HandleStore.run ops).get h = some v ∧
        (HandleStore.run ops).canUse h = !asked h.toNat ops.reverse) ∧
    (¬ (h.toNat < bound ops.reverse ∧ gone h.toNat ops.reverse = false) →
      (HandleStore.run ops).get h = none ∧ (HandleStore.run ops).canUse h = false) := by
  have e := HandleStore.run_eq_after ops.reverse
  rw [List.reverse_reverse] at e
  obtain ⟨d1, d2⟩ := (handle_inv ops.reverse hb hw).2 h
  rw [← e] at d1 d2
  constructor
  · intro h1 h2
    obtain ⟨v, v1, v2, -, -⟩ := d1 h1 h2
    exact ⟨v, v1, by simp [HandleStore.get, v2], by simp [HandleStore.canUse, v2]⟩
  · intro hd
    have := d2 hd
    exact ⟨by simp [HandleStore.get, this], by simp [HandleStore.canUse, this]⟩

example : wellBehaved (List.reverse [HandleOp.bind 5, .increment 0, .free 0, .update 0 6, .decrement 0]) ∧
    (HandleStore.run [HandleOp.bind 5, .increment 0, .free 0, .update 0 6]).get 0 = some 6 ∧
    (HandleStore.run [HandleOp.bind 5, .increment 0, .free 0, .update 0 6, .decrement 0]).get 0 = none := by
  refine ⟨?_, by decide +kernel, by decide +kernel⟩
  simp [wellBehaved, outstanding, bound]

/-- C58 is violated: after 2^64 values the first handle is handed out again, and getting it no
longer yields the first value. -/
theorem C58_violated_reuse (v w : α) (hne : v ≠ w) :
    ∃ ops : List (HandleOp α), (HandleStore.run ops).get 0 = some v ∧ ((HandleStore.run ops).bind w).1 = 0 ∧
      ((HandleStore.run ops).bind w).2.get 0 ≠ some v := by
  have hl : ∀ n, bound (List.replicate n (HandleOp.bind v)) = n := by
    intro n
    induction n with
    | zero => rfl
    | succ n ih => rw [List.replicate_succ]; simp [bound, ih]
  have hall : ∀ n, 0 < n → (HandleStore.after (List.replicate n (HandleOp.bind v))).get 0 = some v := by
    intro n
    induction n with
    | zero => simp
    | succ n ih =>
      intro _
      rw [List.replicate_succ]
      simp only [HandleStore.after, HandleStore.step, HandleStore.bind, HandleStore.get, GoMap.get_set]
      split
      · rfl
      · rename_i hc
        apply ih
        apply Nat.pos_of_ne_zero
        rintro rfl
        exact hc rfl
  obtain ⟨n, hn, hz⟩ : ∃ n : Nat, 0 < n ∧ UInt64.ofNat n = 0 :=
    ⟨18446744073709551616, by omega, UInt64.toNat_inj.1 (by rw [UInt64.toNat_ofNat']; rfl)⟩
  have h0 : (HandleStore.run (List.replicate n (HandleOp.bind v))).least = 0 := by
    rw [run_least, List.reverse_replicate, hl, hz]
  refine ⟨List.replicate n (.bind v), ?_, h0, ?_⟩
  · have := HandleStore.run_eq_after (List.replicate n (HandleOp.bind v))
    rw [List.reverse_replicate] at this
    rw [this]
    exact hall _ hn
  · simp [HandleStore.bind, HandleStore.get, h0, GoMap.get_set, Ne.symm hne]

example : (HandleStore.run [HandleOp.bind 5]).get 0 = some 5 ∧ (5 : Nat) ≠ 6 := by decide

/-- C58 is violated by every handle with no unprocessed message: once a message is reported as processed that was not registered, the
handle is never removed, however often it is freed, unless other messages are registered. -/
theorem C58_violated_always (ops more : List (HandleOp α)) (h : UInt64) (hb : bound (ops ++ .decrement h :: more).reverse < 2 ^ 64)
    (hw : wellBehaved ops.reverse) (hh : h.toNat < bound ops.reverse) (hg : gone h.toNat ops.reverse = false)
    (ho : outstanding h.toNat ops.reverse = 0) (hi : HandleOp.increment h ∉ more) :
    (HandleStore.run (ops ++ .decrement h :: more)).get h ≠ none := by
  have e := HandleStore.run_eq_after (ops ++ .decrement h :: more).reverse
  rw [List.reverse_reverse] at e
  rw [e]
  rw [List.reverse_append, List.reverse_cons, List.append_assoc, List.singleton_append] at hb ⊢
  obtain ⟨t, ht, -⟩ := handle_stuck ops.reverse h hw hh hg ho more.reverse hb (fun hm => hi (List.mem_reverse.1 hm))
  simp [HandleStore.get, ht]

example : wellBehaved (List.reverse [HandleOp.bind 5, .bind 6]) ∧ gone 1 (List.reverse [HandleOp.bind 5, .bind 6]) = false ∧
    outstanding 1 (List.reverse [HandleOp.bind 5, .bind 6]) = 0 ∧
    (HandleStore.run [HandleOp.bind 5, .bind 6, .decrement 1, .free 1, .free 1, .decrement 1]).get 1 = some 6 := by
  refine ⟨?_, ?_, ?_, ?_⟩
  · simp [wellBehaved]
  all_goals decide +kernel

/-- C58 is violated: after a message is reported as processed that was not registered, a freed
handle is never removed. -/
theorem C58_violated_stuck : (HandleStore.run [HandleOp.bind 5, .decrement 0, .free 0]).get 0 = some 5 := by decide +kernel

end Willow.Props
