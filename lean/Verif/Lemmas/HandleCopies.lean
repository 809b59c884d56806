import Verif.Model.HandleCopies
import Verif.Spec.HandleCopies
import Verif.Lemmas.Handles

/-! Lemmas about copies of a handle store. -/

namespace Willow.Props
open Willow Spec

variable {α : Type}

theorem step_least_other (s : HandleStore α) (op : HandleOp α) (h : ∀ v, op ≠ .bind v) : (s.step op).least = s.least := by
  cases op with
  | bind v => exact absurd rfl (h v)
  | update x v => simp only [HandleStore.step, HandleStore.update]; cases s.map.get x <;> rfl
  | free x =>
    simp only [HandleStore.step, HandleStore.free]
    cases s.map.get x with
    | none => rfl
    | some t => dsimp only; split <;> rfl
  | increment x => simp only [HandleStore.step, HandleStore.increment]; cases s.map.get x <;> rfl
  | decrement x =>
    simp only [HandleStore.step, HandleStore.decrement]
    cases s.map.get x with
    | none => rfl
    | some t => dsimp only; split <;> rfl

/-- For calls that do not bind, only the map matters. -/
theorem step_map_other (s t : HandleStore α) (h : s.map = t.map) (op : HandleOp α) (hb : ∀ v, op ≠ .bind v) :
    (s.step op).map = (t.step op).map := by
  obtain ⟨l, m⟩ := s
  obtain ⟨l', m'⟩ := t
  cases h
  cases op with
  | bind v => exact absurd rfl (hb v)
  | update x v => simp only [HandleStore.step, HandleStore.update]; cases m.get x <;> rfl
  | free x =>
    simp only [HandleStore.step, HandleStore.free]
    cases m.get x with
    | none => rfl
    | some t => dsimp only; split <;> rfl
  | increment x => simp only [HandleStore.step, HandleStore.increment]; cases m.get x <;> rfl
  | decrement x =>
    simp only [HandleStore.step, HandleStore.decrement]
    cases m.get x with
    | none => rfl
    | some t => dsimp only; split <;> rfl

theorem copies_step_other (c : HandleCopies α) (i : Nat) (op : HandleOp α) (h : ∀ v, op ≠ .bind v) (j : Nat) :
    (c.step i op).least j = c.least j := by
  show (if j = i then ((c.copy i).step op).least else c.least j) = _
  rw [step_least_other _ _ h]
  split
  · subst_vars; rfl
  · rfl

theorem copies_step_copy (c : HandleCopies α) (i j : Nat) (op : HandleOp α) (h : i = j ∨ ∀ v, op ≠ .bind v) :
    (c.step i op).copy j = (c.copy j).step op := by
  rcases h with rfl | h
  · show (⟨if i = i then _ else _, _⟩ : HandleStore α) = _
    rw [if_pos rfl]
    rfl
  · show (⟨(c.step i op).least j, ((c.copy i).step op).map⟩ : HandleStore α) = _
    rw [copies_step_other c i op h]
    have e1 : ((c.copy j).step op).least = c.least j := step_least_other _ _ h
    have e2 := step_map_other (c.copy i) (c.copy j) rfl op h
    rw [e2]
    generalize (c.copy j).step op = t at *
    obtain ⟨l, m⟩ := t
    cases e1
    rfl

theorem copies_single (j : Nat) (ops : List (Nat × HandleOp α)) : ∀ (c : HandleCopies α),
    (∀ i v, (i, HandleOp.bind v) ∈ ops → i = j) →
    (c.run ops).copy j = (ops.map Prod.snd).foldl HandleStore.step (c.copy j) := by
  induction ops with
  | nil => exact fun c _ => rfl
  | cons o ops ih =>
    intro c h
    obtain ⟨i, op⟩ := o
    show ((c.step i op).run ops).copy j = _
    rw [ih _ (fun i v hv => h i v (List.mem_cons_of_mem _ hv)), copies_step_copy]
    · rfl
    · by_cases hb : ∃ v, op = .bind v
      · obtain ⟨v, rfl⟩ := hb
        exact .inl (h i v List.mem_cons_self)
      · exact .inr fun v e => hb ⟨v, e⟩

theorem copies_numbered (j : Nat) (ops : List (Nat × HandleOp α)) : ∀ (c : HandleCopies α) (n : Nat),
    c.least j = UInt64.ofNat n →
    ((c.handed ops).filter fun x => x.1 = j).map Prod.snd = numberedFrom n (boundBy j ops) := by
  induction ops with
  | nil => exact fun c n _ => rfl
  | cons o ops ih =>
    intro c n hn
    obtain ⟨i, op⟩ := o
    by_cases hb : ∃ v, op = .bind v
    · obtain ⟨v, rfl⟩ := hb
      simp only [HandleCopies.handed, boundBy]
      by_cases hij : i = j
      · subst hij
        rw [List.filter_cons_of_pos (by simp), if_pos rfl, List.map_cons, ih _ (n + 1)]
        · unfold numberedFrom
          rw [List.zipIdx_cons, List.map_cons]
          show (c.least i, v) :: _ = _
          rw [hn]
        · show (if i = i then c.least i + 1 else _) = _
          rw [if_pos rfl, hn]
          simp
      · rw [List.filter_cons_of_neg (by simpa using hij), if_neg hij]
        refine ih _ n ?_
        show (if j = i then _ else c.least j) = _
        rw [if_neg (fun e => hij e.symm), hn]
    · have hb' : ∀ v, op ≠ .bind v := fun v e => hb ⟨v, e⟩
      have e1 : c.handed ((i, op) :: ops) = (c.step i op).handed ops := by
        cases op with
        | bind v => exact absurd rfl (hb' v)
        | _ => rfl
      have e2 : boundBy j ((i, op) :: ops) = boundBy j ops := by
        cases op with
        | bind v => exact absurd rfl (hb' v)
        | _ => rfl
      rw [e1, e2]
      exact ih _ n (by rw [copies_step_other _ _ _ hb', hn])

end Willow.Props
