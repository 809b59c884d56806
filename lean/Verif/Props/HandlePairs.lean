import Verif.Lemmas.PropsHandlePairs

/-! Property theorems C125: which handle a value gets. -/

namespace Willow.Props
open Willow Spec

variable {α : Type}

/-- C125: the values bound get the numbers 0, 1, 2, … in order as handles, whatever other calls are made in
between. -/
theorem C125_numbered (ops : List (HandleOp α)) : HandleStore.empty.handed ops = numbered (boundValues ops) :=
  HandleStore.handed_eq ops .empty 0 rfl

example : (HandleStore.empty.handed [HandleOp.bind 5, .free 0, .bind 6, .update 1 8, .decrement 7, .bind 5] : List (UInt64 × Nat)) =
    [(0, 5), (1, 6), (2, 5)] := by decide +kernel

/-- C125: a peer that has bound the first of the values that the other has bound, whatever else either of them has
done, has given each the handle that the other gave it. -/
theorem C125_agree (mine theirs : List (HandleOp α)) (h : boundValues theirs <+: boundValues mine) :
    HandleStore.empty.handed theirs <+: HandleStore.empty.handed mine := by
  obtain ⟨more, hm⟩ := h
  rw [C125_numbered, C125_numbered, ← hm]
  unfold numbered
  rw [List.zipIdx_append, List.map_append]
  exact List.prefix_append _ _

example : boundValues [HandleOp.bind 5, .increment 0, .bind 6] <+: boundValues [HandleOp.bind 5, .bind 6, .free 1, .bind 9] ∧
    (HandleStore.empty.handed [HandleOp.bind 5, .increment 0, .bind 6] : List (UInt64 × Nat)) = [(0, 5), (1, 6)] := by
  decide +kernel

/-- C125: as long as no more than 2^64 values have been bound, a handle that is neither updated here nor there has
the same value at both peers if it has one, whatever else they have done. -/
theorem C125_same (mine theirs : List (HandleOp α)) (h : boundValues theirs <+: boundValues mine)
    (hb : (boundValues mine).length ≤ 2 ^ 64) (handle : UInt64) (hm : ∀ w, HandleOp.update handle w ∉ mine)
    (ht : ∀ w, HandleOp.update handle w ∉ theirs) (v w : α) (hv : (HandleStore.run mine).get handle = some v)
    (hw : (HandleStore.run theirs).get handle = some w) : v = w := by
  have key : ∀ (ops : List (HandleOp α)) (x : α), (boundValues ops).length ≤ 2 ^ 64 → (∀ w, HandleOp.update handle w ∉ ops) →
      (HandleStore.run ops).get handle = some x → (boundValues ops)[handle.toNat]? = some x := by
    intro ops x h1 h2 h3
    have e := HandleStore.run_eq_after ops.reverse
    have l := boundValues_length ops.reverse
    rw [List.reverse_reverse] at e l
    have := HandleStore.after_value ops.reverse handle x (by omega) (fun w hw => h2 w (List.mem_reverse.1 hw)) (e ▸ h3)
    rwa [List.reverse_reverse] at this
  have h1 := key mine v hb hm hv
  have h2 := key theirs w (Nat.le_trans h.length_le hb) ht hw
  obtain ⟨more, hmore⟩ := h
  obtain ⟨hlt, -⟩ := List.getElem?_eq_some_iff.1 h2
  rw [← hmore, List.getElem?_append_left hlt, h2] at h1
  exact (Option.some.inj h1).symm

example : (HandleStore.run [HandleOp.bind 5, .bind 6, .free 0, .bind 9]).get 1 = some 6 ∧
    (HandleStore.run [HandleOp.bind 5, .increment 0, .bind 6]).get 1 = some 6 := by decide +kernel

/-- C125: a call about one handle leaves the value, and whether it may be used, of every other handle alone, and so
does binding a value, for every handle but the one that it returns. -/
theorem C125_others (s : HandleStore α) (op : HandleOp α) (h : UInt64) (hh : about op ≠ some h)
    (hb : ∀ v, op = .bind v → (s.bind v).1 ≠ h) : (s.step op).get h = s.get h ∧ (s.step op).canUse h = s.canUse h := by
  have e : (s.step op).map.get h = s.map.get h := by
    apply HandleStore.step_other
    cases op with
    | bind v => exact fun he => hb v rfl he.symm
    | _ => exact hh
  constructor
  · unfold HandleStore.get; rw [e]
  · unfold HandleStore.canUse; rw [e]

example : ((HandleStore.run [HandleOp.bind 5, .bind 6, .increment 1]).step (.free 1)).canUse 0 = true ∧
    ((HandleStore.run [HandleOp.bind 5, .bind 6, .increment 1]).step (.free 1)).canUse 1 = false := by decide +kernel

end Willow.Props
