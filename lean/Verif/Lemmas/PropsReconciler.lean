import Verif.Model.Reconciler
import Verif.Spec.Reconciler
import Verif.Props.Successor
import Verif.Props.OrdersRanges

/-! Lemmas about starting a reconciliation. -/

namespace Willow.Props

open Willow Spec

theorem convertible_range {p : PathParams} {a : Area} (h : Convertible p a) :
    ∃ r, areaTo3dRange [] successorSubspaceId p a = .ok r ∧ ValidRange3d r ∧ r.path.start = a.path ∧
      ∀ x : Position, (∀ c ∈ x.path, c.length ≤ p.cl) → (InArea a x ↔ InRange3d r x) := by
  obtain ⟨r, hr, hx⟩ := C11_areaTo3dRange_partial [] successorSubspaceId p a (fun _ => lexLt_nil _) C14_successorSubspaceId
    h.valid h.room
  obtain ⟨⟨e, he⟩, hmut⟩ := successorPrefix_kept h.room
  have hs := successorPrefix_spec h.valid he
  have hr' := hr
  unfold areaTo3dRange at hr'
  rw [he] at hr'
  cases hr'
  refine ⟨_, hr, ⟨?_, ?_, h.times⟩, hmut, hx⟩
  · show ValidRange BytesLt (if (!a.anySubspace) = true then _ else _)
    split
    · exact .inr (C14_successorSubspaceId _).1
    · exact .inl rfl
  · show ValidRange PathLt ⟨successorPrefixMutated a.path p, e.getD [], (e.getD []).length == 0⟩
    rw [hmut]
    cases hs with
    | none hm => exact .inl rfl
    | some pre post c c' hpath hsu hm =>
      refine .inr ?_
      show PathLt a.path (pre ++ [c'])
      rw [hpath]
      exact ext_lt_succ (post := post) hsu.lt (List.prefix_refl _)

theorem intersectRange_start {α : Type} {cmp : α → α → Ordering} {dflt : α} {a b r : GRange α}
    (h : intersectRange dflt cmp a b = some r) : r.start = a.start ∨ r.start = b.start := by
  have hp : orderRangePair a b = (a, b) ∨ orderRangePair a b = (b, a) := by
    unfold orderRangePair
    grind
  unfold intersectRange at h
  rcases hp with hp | hp <;> rw [hp] at h <;> dsimp only at h <;> grind

theorem intersectRange3d_start {ordS : Bytes → Bytes → Ordering} {a b r : Range3d} (h : intersectRange3d ordS a b = some r) :
    r.path.start = a.path.start ∨ r.path.start = b.path.start := by
  unfold intersectRange3d at h
  split at h
  · cases h
  · split at h
    · cases h
    · split at h
      · cases h
      · rename_i hp
        cases h
        exact intersectRange_start hp

end Willow.Props
