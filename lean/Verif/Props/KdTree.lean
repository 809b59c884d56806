import Verif.Lemmas.KdTree

/-! Properties of the k-d tree callbacks (C32). -/

namespace Willow.Props

open Willow Spec

/-- C32: searching a laid-out tree with the answers of `kdnode.Query` finds exactly the keys in
the range, each as often as the tree holds it. -/
theorem C32_search (t : KdTree) (h : t.LaidOut 0) (q : Range3d) (k : KdKey) :
    (k ∈ kdQuery t q ↔ k ∈ t.keys ∧ InRange3d q k.pos) ∧
    (InRange3d q k.pos → (kdQuery t q).count k = t.keys.count k) := by
  unfold kdQuery
  rw [search_eq q t 0 (by decide) h]
  refine ⟨by rw [List.mem_filter, isIncluded3d_iff decides_subspace], fun hk => ?_⟩
  rw [← isIncluded3d_iff decides_subspace] at hk
  rw [List.count_filter (by simpa using hk)]

/-- C32: in every dimension the key order is a total order on positions: it answers "equal"
exactly for equal positions (so `Add` refuses and `Delete` removes exactly that position), is
antisymmetric and transitive. -/
theorem C32_keyOrder (d : Nat) (hd : d < 3) :
    (∀ a b, keyOrder a b d = .eq ↔ a.pos = b.pos) ∧
    (∀ a b, keyOrder a b d = .lt ↔ keyOrder b a d = .gt) ∧
    (∀ a b c, keyOrder a b d = .lt → keyOrder b c d = .lt → keyOrder a c d = .lt) := by
  refine ⟨fun a b => keyOrder_eq_iff a b d hd, fun a b => keyOrder_swap a b d hd, fun a b c => keyOrder_trans a b c d hd⟩

example : (KdTree.node ⟨⟨[1], [[2]], 5⟩, []⟩
      (.node ⟨⟨[2], [[1]], 3⟩, []⟩ (.node ⟨⟨[1], [[9]], 4⟩, []⟩ .nil .nil) .nil)
      (.node ⟨⟨[1], [[3]], 5⟩, []⟩ .nil .nil)).LaidOut 0 ∧
    InRange3d ⟨⟨[1], [1, 0], false⟩, ⟨[[3]], [], true⟩, ⟨0, 5, false⟩⟩ ⟨[1], [[9]], 4⟩ ∧
    kdQuery (KdTree.node ⟨⟨[1], [[2]], 5⟩, []⟩
      (.node ⟨⟨[2], [[1]], 3⟩, []⟩ (.node ⟨⟨[1], [[9]], 4⟩, []⟩ .nil .nil) .nil)
      (.node ⟨⟨[1], [[3]], 5⟩, []⟩ .nil .nil)) ⟨⟨[1], [1, 0], false⟩, ⟨[[3]], [], true⟩, ⟨0, 5, false⟩⟩ =
      [⟨⟨[1], [[9]], 4⟩, []⟩] := by
  refine ⟨by simp only [KdTree.LaidOut, KdTree.keys]; decide, ?_, by decide⟩
  rw [← isIncluded3d_iff decides_subspace]; decide

end Willow.Props
