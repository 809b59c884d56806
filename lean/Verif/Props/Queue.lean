import Verif.Lemmas.Queue

/-! C61: the guarantee queue. -/

namespace Willow.Props

open Willow Spec

/-- C61 is violated: the first message pushed into a new queue ends the process. -/
theorem C61_violated (bytes : Bytes) (h : bytes.length < 2 ^ 62) : GuaranteedQueue.new.push bytes = .crash := by
  unfold GuaranteedQueue.push GuaranteedQueue.useGuarantees
  simp only [GuaranteedQueue.new, List.length_nil, Nat.zero_lt_succ, if_true, List.nil_append, List.length_cons, gt_iff_lt,
    List.cons_append]
  have : useGuaranteesLoop 0 [0] (0 :: bytes) = .crash := by
    unfold useGuaranteesLoop
    rw [if_neg (by decide +kernel), loop_crash]
    have e : (0 - UInt64.ofNat (utf8Len 0) : UInt64).toNat = 2 ^ 64 - 1 := by decide +kernel
    omega
  rw [this]
  rfl

example : ([1, 2, 3] : Bytes).length < 2 ^ 62 := by decide

/-- C61 is violated, for every sequence of calls: as long as they return, part of what was pushed
has not been sent, whatever guarantees were issued. The first unsent byte is above 127. -/
theorem C61_violated_neverAll (ops : List QueueOp) (q : GuaranteedQueue) (h : GuaranteedQueue.new.run ops = .ok q)
    (hp : anyPush ops = true) :
    ∃ sent b unsent, pushedBytes ops = sent ++ b :: unsent ∧ q.outgoing = 0 :: 0 :: sent ∧ q.received = b :: unsent ∧ 128 ≤ b := by
  obtain ⟨_, s, b, h1, h2, h3, h4⟩ := (run_placed ops q h).used hp
  cases hr : q.received with
  | nil => rw [hr] at h3; cases h3
  | cons c rest =>
    rw [hr] at h1 h3
    cases h3
    exact ⟨s, b, rest, h1, h2, rfl, by simpa using h4⟩

example : ∃ q, GuaranteedQueue.new.run [.add 5, .push [65, 200], .add 3, .push [66]] = .ok q ∧ q.outgoing = [0, 0, 65] ∧
    q.received = [200, 66] := ⟨_, rfl, by decide +kernel, by decide +kernel⟩

/-- C61 is violated by every plea for more than the guarantees that are there, in any state: afterwards there are as many
guarantees as the plea says, though none were issued, and the number that is to be given up wraps around. -/
theorem C61_violated_created (q : GuaranteedQueue) (t : UInt64) (h : q.guarantees < t) :
    (q.plead t).2.guarantees = t ∧ q.guarantees < (q.plead t).1 := by
  have e : q.guarantees - (q.guarantees - t) = t := by
    rw [← UInt64.toNat_inj]
    simp only [UInt64.toNat_sub]
    have := t.toNat_lt
    have := q.guarantees.toNat_lt
    omega
  refine ⟨e, ?_⟩
  show q.guarantees < q.guarantees - t
  simp only [UInt64.lt_iff_toNat_lt, UInt64.toNat_sub] at *
  have := t.toNat_lt
  have := q.guarantees.toNat_lt
  omega

example : (GuaranteedQueue.new.plead 9).2.guarantees = 9 ∧ (GuaranteedQueue.new.plead 9).1 = 18446744073709551607 := by
  decide +kernel

/-- C61 is violated: a plea for a size above the guarantees that are there creates guarantees;
here none is ever issued, and a pushed byte is sent. -/
theorem C61_violated_plead : ∃ ops q, issued ops = 0 ∧ GuaranteedQueue.new.run ops = .ok q ∧ q.outgoing = [0, 0, 200] ∧
    pushedBytes ops = [200, 201] := by
  refine ⟨[.plead 11, .push [200, 201]], _, rfl, rfl, ?_, rfl⟩
  decide +kernel

/-- C61, partial: the bytes come out once and in order, after the two zero bytes the queue starts
with: what was sent, then what waits to be sent, are the zero bytes and the pushed bytes.
Missing: the zero bytes, and that the calls return and that everything is sent (see
`C61_violated`, `C61_violated_neverAll`). -/
theorem C61_order_partial (ops : List QueueOp) (q : GuaranteedQueue) (h : GuaranteedQueue.new.run ops = .ok q) :
    q.outgoing ++ q.received = 0 :: 0 :: pushedBytes ops := by
  cases hp : anyPush ops with
  | false =>
    obtain ⟨_, h2, h3⟩ := (run_placed ops q h).fresh hp
    rw [h2, h3, pushed_of_not_any ops hp]
    rfl
  | true =>
    obtain ⟨s, b, u, h1, h2, h3, _⟩ := C61_violated_neverAll ops q h hp
    rw [h2, h3, h1]
    rfl

example : ∃ q, GuaranteedQueue.new.run [.add 4, .push [65, 200]] = .ok q ∧ q.outgoing ++ q.received = [0, 0, 65, 200] ∧ q.received ≠ [] :=
  ⟨_, rfl, by decide +kernel, by decide +kernel⟩

theorem run_paid (ops : List QueueOp) : ∀ q, GuaranteedQueue.new.run ops = .ok q → issued ops < 2 ^ 64 →
    (pushedBytes ops).length < 2 ^ 61 →
    (∀ before t after q', ops = before ++ .plead t :: after → GuaranteedQueue.new.run before = .ok q' → t ≤ q'.guarantees) →
    q.guarantees.toNat + q.outgoing.length ≤ issued ops + 1 := by
  induction ops using snoc_induction with
  | h0 => intro q h _ _ _; cases h; decide
  | h1 ops op ih =>
    intro q h hi hb hpl
    obtain ⟨q1, hr, hs⟩ := run_snoc_ok _ _ _ _ h
    rw [issued_append] at hi ⊢
    rw [pushedBytes_append, List.length_append] at hb
    have h1 := ih q1 hr (by omega) (by omega) (fun b t a q' e hq => hpl b t (a ++ [op]) q' (by rw [e]; simp) hq)
    have hlen : q1.received.length ≤ (pushedBytes ops).length + 2 := by
      have := congrArg List.length (C61_order_partial ops q1 hr)
      simp only [List.length_append, List.length_cons] at this
      omega
    cases op with
    | push bytes =>
      simp only [GuaranteedQueue.step, GuaranteedQueue.push] at hs
      split at hs
      · simp only [pushedBytes, List.append_nil] at hb
        have := use_paid _ _ hs (by simp only [List.length_append]; omega)
        simp only [issued] at this ⊢
        omega
      · cases hs
    | add n =>
      simp only [GuaranteedQueue.step, GuaranteedQueue.addGuarantees] at hs
      have := use_paid _ _ hs (by simp only; omega)
      simp only [issued] at this hi ⊢
      have hadd : (q1.guarantees + n).toNat ≤ q1.guarantees.toNat + n.toNat := by
        rw [UInt64.toNat_add]; exact Nat.mod_le _ _
      omega
    | plead t =>
      have ht := hpl ops t [] q1 rfl hr
      simp only [GuaranteedQueue.step, GuaranteedQueue.plead] at hs
      cases hs
      simp only [issued]
      have e : q1.guarantees - (q1.guarantees - t) = t := by
        apply UInt64.toNat_inj.1
        rw [UInt64.le_iff_toNat_le] at ht
        have h2 : (q1.guarantees - t).toNat = q1.guarantees.toNat - t.toNat := UInt64.toNat_sub_of_le _ _ (UInt64.le_iff_toNat_le.2 ht)
        rw [UInt64.toNat_sub_of_le _ _ (UInt64.le_iff_toNat_le.2 (by omega)), h2]
        omega
      rw [e]
      rw [UInt64.le_iff_toNat_le] at ht
      omega

/-- C61, partial: no more bytes are sent than were guaranteed (not counting the zero byte that is
in the outgoing bytes from the start), if every plea is for a size that the guarantees reach, for
fewer than 2^61 bytes and 2^64 guarantees. Missing: other pleas (see `C61_violated_plead`). -/
theorem C61_bounded_partial (ops : List QueueOp) (q : GuaranteedQueue) (h : GuaranteedQueue.new.run ops = .ok q)
    (hi : issued ops < 2 ^ 64) (hb : (pushedBytes ops).length < 2 ^ 61)
    (hpl : ∀ before t after q', ops = before ++ .plead t :: after → GuaranteedQueue.new.run before = .ok q' → t ≤ q'.guarantees) :
    q.outgoing.length - 1 ≤ issued ops := by
  have := run_paid ops q h hi hb hpl
  omega

example : ∃ q, GuaranteedQueue.new.run [.add 5, .plead 4, .push [65, 200]] = .ok q ∧ q.outgoing = [0, 0, 65] ∧
    q.outgoing.length - 1 ≤ issued [.add 5, .plead 4, .push [65, 200]] := by
  refine ⟨_, rfl, by decide +kernel, C61_bounded_partial _ _ rfl (by decide) (by decide) ?_⟩
  intro before t after q' he hr
  match before, he with
  | [], he => simp at he
  | [a], he =>
    simp only [List.cons_append, List.nil_append, List.cons.injEq] at he
    obtain ⟨rfl, h, rfl⟩ := he
    cases h
    cases hr
    decide
  | [a, b], he => simp at he
  | [a, b, c], he => simp at he
  | a :: b :: c :: d :: e, he => simp at he

end Willow.Props
