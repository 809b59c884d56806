import Verif.Spec.Wgps
import Verif.Lemmas.Handles

/-! Lemmas about the guarantee queue. -/

namespace Willow

open Spec

theorem decimalLen_le_one (g : UInt64) : decimalLen g ≤ 1 ↔ g.toNat < 10 := by
  unfold decimalLen
  rw [Nat.length_toDigits_le_iff (by omega) (by omega)]

theorem decimalLen_pos (g : UInt64) : 1 ≤ decimalLen g := Nat.length_toDigits_pos

theorem utf8Len_cases (b : UInt8) : (utf8Len b = 1 ∧ b < 0x80) ∨ (utf8Len b = 2 ∧ ¬ b < 0x80) := by
  unfold utf8Len
  split
  · rename_i h; exact .inl ⟨rfl, h⟩
  · rename_i h; exact .inr ⟨rfl, h⟩

/-- With many guarantees everything is sent and then the process ends. -/
theorem loop_crash (l out : Bytes) (g : UInt64) (h : 10 + 2 * l.length ≤ g.toNat) : useGuaranteesLoop g out l = .crash := by
  induction l generalizing g out with
  | nil => rfl
  | cons b l ih =>
    simp only [List.length_cons] at h
    have hd : ¬ decimalLen g ≤ 1 := fun h' => by have := (decimalLen_le_one g).1 h'; omega
    unfold useGuaranteesLoop
    have hu := utf8Len_cases b
    rw [if_neg (by omega)]
    apply ih
    rw [UInt64.toNat_sub_of_le]
    · rcases hu with ⟨hu, -⟩ | ⟨hu, -⟩ <;> rw [hu] <;> simp <;> omega
    · rw [UInt64.le_iff_toNat_le]
      rcases hu with ⟨hu, -⟩ | ⟨hu, -⟩ <;> rw [hu] <;> simp <;> omega

/-- What is left when the loop returns: bytes in order, beginning with one that does not fit. -/
theorem loop_ok (l out : Bytes) (g g' : UInt64) (l' out' : Bytes) (h : useGuaranteesLoop g out l = .ok (g', l', out')) :
    ∃ s, l = s ++ l' ∧ out' = out ++ s ∧ ∃ b, l'.head? = some b ∧ ¬ b < 0x80 := by
  induction l generalizing g out with
  | nil => cases h
  | cons b l ih =>
    unfold useGuaranteesLoop at h
    split at h
    · rename_i hc
      cases h
      refine ⟨[], rfl, by simp, b, rfl, ?_⟩
      have := decimalLen_pos g'
      rcases utf8Len_cases b with ⟨h1, _⟩ | ⟨_, h2⟩
      · omega
      · exact h2
    · obtain ⟨s, h1, h2, h3⟩ := ih _ _ h
      exact ⟨b :: s, by rw [h1]; rfl, by rw [h2]; simp, h3⟩

/-- When the loop returns and there is not an enormous number of bytes, the guarantees have paid
for what was sent. -/
theorem loop_paid (l out : Bytes) (g g' : UInt64) (l' out' : Bytes) (hl : l.length < 2 ^ 62)
    (h : useGuaranteesLoop g out l = .ok (g', l', out')) :
    g'.toNat + (out'.length - out.length) ≤ g.toNat ∧ out.length ≤ out'.length := by
  induction l generalizing g out with
  | nil => cases h
  | cons b l ih =>
    simp only [List.length_cons] at hl
    unfold useGuaranteesLoop at h
    split at h
    · cases h; simp
    · rename_i hc
      have hsub : UInt64.ofNat (utf8Len b) ≤ g := by
        rw [UInt64.le_iff_toNat_le]
        rcases utf8Len_cases b with ⟨hu, _⟩ | ⟨hu, _⟩
        · rw [hu]
          apply Nat.one_le_iff_ne_zero.2
          intro h0
          have hg : g = 0 := UInt64.toNat_inj.1 h0
          rw [hu, hg, loop_crash] at h
          · cases h
          · have : (0 - UInt64.ofNat 1 : UInt64).toNat = 2 ^ 64 - 1 := by decide
            omega
        · have hd : ¬ decimalLen g ≤ 1 := by omega
          rw [decimalLen_le_one] at hd
          rw [hu]; simp; omega
      obtain ⟨h1, h2⟩ := ih _ _ (by omega) h
      rw [UInt64.toNat_sub_of_le _ _ hsub] at h1
      rw [UInt64.le_iff_toNat_le] at hsub
      simp only [List.length_append, List.length_cons, List.length_nil] at h1 h2
      have hu : 1 ≤ (UInt64.ofNat (utf8Len b)).toNat := by
        rcases utf8Len_cases b with ⟨hu, _⟩ | ⟨hu, _⟩ <;> rw [hu] <;> simp
      omega

theorem use_ok (q q' : GuaranteedQueue) (h : q.useGuarantees = .ok q') :
    q'.queue = q.queue ∧ ((q.queue = [] ∧ q' = q) ∨
      (q.queue ≠ [] ∧ useGuaranteesLoop q.guarantees q.outgoing q.received = .ok (q'.guarantees, q'.received, q'.outgoing))) := by
  unfold GuaranteedQueue.useGuarantees at h
  split at h
  · rename_i hc
    cases hu : useGuaranteesLoop q.guarantees q.outgoing q.received with
    | ok x =>
      obtain ⟨g, r, o⟩ := x
      rw [hu] at h
      cases h
      exact ⟨rfl, .inr ⟨by intro h0; simp [h0] at hc, rfl⟩⟩
    | err => rw [hu] at h; cases h
    | crash => rw [hu] at h; cases h
    | block => rw [hu] at h; cases h
  · rename_i hc
    cases h
    exact ⟨rfl, .inl ⟨by simpa using hc, rfl⟩⟩

theorem GuaranteedQueue.run_append (q : GuaranteedQueue) (a b : List QueueOp) :
    q.run (a ++ b) = (q.run a >>= fun q => q.run b) := by
  induction a generalizing q with
  | nil => rfl
  | cons op a ih =>
    simp only [List.cons_append, GuaranteedQueue.run]
    cases q.step op with
    | ok x => exact ih x
    | err => rfl
    | crash => rfl
    | block => rfl

/-- Where the bytes of a queue are: before the first message, one zero byte is sent and one is
not; after it, both are sent, with a part of the pushed bytes, and the rest begins with a byte
that does not fit. -/
structure Placed (pushed : Bytes) (any : Bool) (q : GuaranteedQueue) : Prop where
  fresh : any = false → q.queue = [] ∧ q.outgoing = [0] ∧ q.received = [0]
  used : any = true → q.queue ≠ [] ∧ ∃ s b, pushed = s ++ q.received ∧ q.outgoing = 0 :: 0 :: s ∧
    q.received.head? = some b ∧ ¬ b < 0x80

/-- One more push or addition: from a placed queue with the bytes appended. -/
theorem placed_use (pushed more : Bytes) (any : Bool) (q q1 q' : GuaranteedQueue) (hp : Placed pushed any q)
    (h : q1.useGuarantees = .ok q') (hr : q1.received = q.received ++ more) (ho : q1.outgoing = q.outgoing) (hq : q1.queue ≠ []) :
    Placed (pushed ++ more) true q' ∨ (any = false ∧ pushed ≠ []) := by
  obtain ⟨e1, h | ⟨_, h⟩⟩ := use_ok _ _ h
  · exact absurd h.1 hq
  · obtain ⟨s, h1, h2, b, h3, h4⟩ := loop_ok _ _ _ _ _ _ h
    rw [hr] at h1
    rw [ho] at h2
    cases any with
    | false =>
      by_cases hpe : pushed = []
      · left
        obtain ⟨f1, f2, f3⟩ := hp.fresh rfl
        rw [f3] at h1
        rw [f2] at h2
        refine ⟨by simp, fun _ => ⟨by rw [e1]; exact hq, ?_⟩⟩
        cases s with
        | nil =>
          rw [List.nil_append] at h1
          rw [← h1] at h3
          cases h3
          exact absurd (by decide) h4
        | cons x s =>
          simp only [List.cons_append, List.nil_append, List.cons.injEq] at h1
          obtain ⟨rfl, h1⟩ := h1
          exact ⟨s, b, by rw [hpe, List.nil_append, h1], by rw [h2]; rfl, h3, h4⟩
      · exact .inr ⟨rfl, hpe⟩
    | true =>
      left
      obtain ⟨_, s0, b0, g1, g2, g3, g4⟩ := hp.used rfl
      refine ⟨by simp, fun _ => ⟨by rw [e1]; exact hq, s0 ++ s, b, ?_, by rw [h2, g2]; rfl, h3, h4⟩⟩
      rw [g1, List.append_assoc, h1, List.append_assoc]

theorem pushedBytes_append (a b : List QueueOp) : pushedBytes (a ++ b) = pushedBytes a ++ pushedBytes b := by
  induction a with
  | nil => rfl
  | cons op a ih => cases op <;> simp [pushedBytes, ih]

theorem issued_append (a b : List QueueOp) : issued (a ++ b) = issued a + issued b := by
  induction a with
  | nil => simp [issued]
  | cons op a ih => cases op <;> simp [issued, ih, Nat.add_assoc]

theorem anyPush_append (a b : List QueueOp) : anyPush (a ++ b) = (anyPush a || anyPush b) := by
  induction a with
  | nil => simp [anyPush]
  | cons op a ih => cases op <;> simp [anyPush, ih]

theorem pushed_of_not_any (ops : List QueueOp) (h : anyPush ops = false) : pushedBytes ops = [] := by
  induction ops with
  | nil => rfl
  | cons op ops ih => cases op <;> simp_all [anyPush, pushedBytes]

/-- Induction from the end of a list. -/
theorem snoc_induction {α : Type} {P : List α → Prop} (h0 : P []) (h1 : ∀ l a, P l → P (l ++ [a])) (l : List α) : P l := by
  have : ∀ l : List α, P l.reverse := by
    intro l
    induction l with
    | nil => exact h0
    | cons a l ih => rw [List.reverse_cons]; exact h1 _ _ ih
  have := this l.reverse
  rwa [List.reverse_reverse] at this

theorem run_snoc_ok (q q' : GuaranteedQueue) (ops : List QueueOp) (op : QueueOp) (h : q.run (ops ++ [op]) = .ok q') :
    ∃ q1, q.run ops = .ok q1 ∧ q1.step op = .ok q' := by
  rw [GuaranteedQueue.run_append] at h
  cases hr : q.run ops with
  | ok q1 =>
    rw [hr] at h
    refine ⟨q1, rfl, ?_⟩
    have h : (q1.step op >>= fun q => Res.ok q) = .ok q' := h
    cases hs : q1.step op with
    | ok x => rw [hs] at h; exact h
    | err => rw [hs] at h; cases h
    | crash => rw [hs] at h; cases h
    | block => rw [hs] at h; cases h
  | err => rw [hr] at h; cases h
  | crash => rw [hr] at h; cases h
  | block => rw [hr] at h; cases h

theorem run_placed (ops : List QueueOp) : ∀ q, GuaranteedQueue.new.run ops = .ok q → Placed (pushedBytes ops) (anyPush ops) q := by
  induction ops using snoc_induction with
  | h0 =>
    intro q h
    cases h
    exact ⟨fun _ => ⟨rfl, rfl, rfl⟩, fun h => by cases h⟩
  | h1 ops op ih =>
    intro q h
    obtain ⟨q1, hr, hs⟩ := run_snoc_ok _ _ _ _ h
    have hp := ih q1 hr
    rw [pushedBytes_append, anyPush_append]
    cases op with
    | push bytes =>
      simp only [GuaranteedQueue.step, GuaranteedQueue.push] at hs
      split at hs
      · simp only [pushedBytes, anyPush, Bool.or_true, List.append_nil]
        rcases placed_use _ bytes _ q1 _ q hp hs rfl rfl (by simp) with h | ⟨h1, h2⟩
        · exact h
        · exact absurd (pushed_of_not_any _ h1) h2
      · cases hs
    | add n =>
      simp only [GuaranteedQueue.step, GuaranteedQueue.addGuarantees] at hs
      simp only [pushedBytes, anyPush, Bool.or_false, List.append_nil]
      cases hany : anyPush ops with
      | false =>
        obtain ⟨f1, f2, f3⟩ := hp.fresh hany
        obtain ⟨_, ⟨_, rfl⟩ | ⟨h, _⟩⟩ := use_ok _ _ hs
        · exact ⟨fun _ => ⟨f1, f2, f3⟩, fun h => by cases h⟩
        · exact absurd f1 h
      | true =>
        rw [hany] at hp
        rcases placed_use _ [] _ q1 _ q hp hs (by simp) rfl (by exact (hp.used rfl).1) with h | ⟨h1, _⟩
        · simpa using h
        · cases h1
    | plead t =>
      simp only [GuaranteedQueue.step, GuaranteedQueue.plead] at hs
      cases hs
      simp only [pushedBytes, anyPush, Bool.or_false, List.append_nil]
      exact ⟨hp.fresh, hp.used⟩

theorem use_paid (q q' : GuaranteedQueue) (h : q.useGuarantees = .ok q') (hl : q.received.length < 2 ^ 62) :
    q'.guarantees.toNat + q'.outgoing.length ≤ q.guarantees.toNat + q.outgoing.length := by
  obtain ⟨_, ⟨_, rfl⟩ | ⟨_, h⟩⟩ := use_ok _ _ h
  · exact Nat.le_refl _
  · have := loop_paid _ _ _ _ _ _ hl h
    omega

end Willow
