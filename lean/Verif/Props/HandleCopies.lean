import Verif.Lemmas.HandleCopies

/-! Property theorems C133: copies of a handle store. -/

namespace Willow.Props
open Willow Spec

variable {α : Type}

/-- C133, partial: if values are bound through one copy only, then with any calls on any of the copies that one is as if
it had been the only store and all calls had been made on it, and every other copy gives the same values and the same
answers about use. Missing: binding through several copies (see `C133_violated_twice`). -/
theorem C133_single_partial (s : HandleStore α) (j : Nat) (ops : List (Nat × HandleOp α))
    (h : ∀ i v, (i, HandleOp.bind v) ∈ ops → i = j) :
    (s.copies.run ops).copy j = (ops.map Prod.snd).foldl HandleStore.step s ∧
    ∀ (i : Nat) (handle : UInt64),
      ((s.copies.run ops).copy i).get handle = ((ops.map Prod.snd).foldl HandleStore.step s).get handle ∧
      ((s.copies.run ops).copy i).canUse handle = ((ops.map Prod.snd).foldl HandleStore.step s).canUse handle := by
  have e := copies_single j ops s.copies h
  have e' : (s.copies.run ops).copy j = (ops.map Prod.snd).foldl HandleStore.step s := e
  refine ⟨e', fun i handle => ?_⟩
  rw [← e']
  exact ⟨rfl, rfl⟩

example : ((HandleStore.run [HandleOp.bind 5]).copies.run [(1, .bind 6), (0, .increment 1), (2, .free 1), (1, .bind 7)]).map =
      (HandleStore.run [HandleOp.bind 5, .bind 6, .increment 1, .free 1, .bind 7]).map ∧
    (((HandleStore.run [HandleOp.bind 5]).copies.run [(1, .bind 6), (0, .increment 1), (2, .free 1), (1, .bind 7)]).copy 0).canUse 1 =
      false := by decide +kernel

/-- C133: which handles a copy gives out: the numbers from its first free one on, for the values bound through it,
whatever is bound through other copies. -/
theorem C133_numbered (s : HandleStore α) (j : Nat) (ops : List (Nat × HandleOp α)) :
    ((s.copies.handed ops).filter fun x => x.1 = j).map Prod.snd = numberedFrom s.least.toNat (boundBy j ops) :=
  copies_numbered j ops s.copies s.least.toNat (by simp [HandleStore.copies])

example : (HandleStore.run [HandleOp.bind 5]).copies.handed [(1, .bind 6), (0, .bind 7), (1, .free 1), (1, .bind 8), (0, .bind 9)] =
    [(1, 1, 6), (0, 1, 7), (1, 2, 8), (0, 2, 9)] := by decide +kernel

/-- C133 is violated: if after copying as many values have been bound through one copy as through another, whatever else
has been done, then the next value bound through the one and the next one bound through the other get the same handle, and
the handle then has the second value, through every copy: the first is lost. -/
theorem C133_violated_twice (s : HandleStore α) (i j : Nat) (hij : i ≠ j) (ops : List (Nat × HandleOp α))
    (h : (boundBy i ops).length = (boundBy j ops).length) (v w : α) : ∃ handle : UInt64,
    s.copies.handed (ops ++ [(i, .bind v), (j, .bind w)]) = s.copies.handed ops ++ [(i, handle, v), (j, handle, w)] ∧
    ∀ k, ((s.copies.run (ops ++ [(i, .bind v), (j, .bind w)])).copy k).get handle = some w := by
  have hh : ∀ (ops more : List (Nat × HandleOp α)) (c : HandleCopies α),
      c.handed (ops ++ more) = c.handed ops ++ (c.run ops).handed more ∧ c.run (ops ++ more) = (c.run ops).run more := by
    intro ops more
    induction ops with
    | nil => exact fun c => ⟨rfl, rfl⟩
    | cons o ops ih =>
      intro c
      obtain ⟨k, op⟩ := o
      refine ⟨?_, (ih _).2⟩
      cases op with
      | bind u => exact congrArg (List.cons _) (ih _).1
      | _ => exact (ih _).1
  have hl : ∀ (j : Nat) (ops : List (Nat × HandleOp α)) (c : HandleCopies α),
      (c.run ops).least j = c.least j + UInt64.ofNat (boundBy j ops).length := by
    intro j ops
    induction ops with
    | nil => intro c; simp [HandleCopies.run, boundBy]
    | cons o ops ih =>
      intro c
      obtain ⟨k, op⟩ := o
      show ((c.step k op).run ops).least j = _
      rw [ih]
      by_cases hb : ∃ u, op = .bind u
      · obtain ⟨u, rfl⟩ := hb
        simp only [boundBy]
        by_cases hkj : k = j
        · subst hkj
          rw [if_pos rfl]
          show (if k = k then c.least k + 1 else _) + _ = _
          rw [if_pos rfl, List.length_cons, UInt64.add_assoc, UInt64.ofNat_add, UInt64.add_comm 1]
          rfl
        · rw [if_neg hkj]
          show (if j = k then _ else c.least j) + _ = _
          rw [if_neg (fun e => hkj e.symm)]
      · have hb' : ∀ u, op ≠ .bind u := fun u e => hb ⟨u, e⟩
        rw [copies_step_other _ _ _ hb']
        cases op with
        | bind u => exact absurd rfl (hb' u)
        | _ => rfl
  have hi := hl i ops s.copies
  have hj := hl j ops s.copies
  rw [h] at hi
  have hij' : (s.copies.run ops).least i = (s.copies.run ops).least j := hi.trans hj.symm
  generalize hc : s.copies.run ops = c at *
  refine ⟨c.least j, ?_, fun k => ?_⟩
  · rw [(hh ops _ s.copies).1, hc]
    show _ ++ [(i, c.least i, v), (j, (if j = i then _ else c.least j), w)] = _
    rw [if_neg (fun e => hij e.symm), hij']
  · rw [(hh ops _ s.copies).2, hc]
    show ((((c.step i (.bind v)).step j (.bind w)).map.get (c.least j)).map (·.value)) = some w
    show ((((c.step i (.bind v)).map.set (if j = i then _ else c.least j) ⟨w, false, 0⟩).get (c.least j)).map (·.value)) = some w
    rw [if_neg (fun e => hij e.symm), GoMap.get_set, if_pos rfl]
    rfl

example : (boundBy 0 [(0, .bind 5), (1, .bind 6), (2, .bind 7)]).length = (boundBy 2 [(0, .bind 5), (1, .bind 6), (2, HandleOp.bind 7)]).length ∧
    (((HandleStore.empty : HandleStore Nat).copies.run [(0, .bind 5), (1, .bind 6)]).copy 0).get 0 = some 6 := by decide +kernel

end Willow.Props
