import Verif.Model.KdTree
import Verif.Lemmas.Ranges

/-! Lemmas about the k-d tree search. -/

namespace Willow

open Spec

theorem relPosDim_inRange {α : Type} {lt : α → α → Prop} {cmp : α → α → Ordering} (hd : Decides lt cmp)
    (r : GRange α) (x : α) : relPosDim cmp r x = .inRange ↔ InRange lt r x := by
  unfold relPosDim InRange
  rw [← hd.bne_lt, ← hd.beq_lt]
  split
  · rename_i h
    by_cases h2 : r.openEnd = true ∨ (cmp x r.stop == .lt) = true
    · rw [if_pos (by simpa using h2)]; simp only [h, h2, true_and]
    · rw [if_neg (by simpa using h2)]; simp only [h2, and_false]; simp
  · rename_i h; simp [h]

theorem relPosDim_before {α : Type} {lt : α → α → Prop} {cmp : α → α → Ordering} (hd : Decides lt cmp)
    (r : GRange α) (x : α) : relPosDim cmp r x = .before ↔ lt x r.start := by
  unfold relPosDim
  have := hd.bne_lt x r.start
  split
  · split <;> simp_all
  · simp_all

theorem relPosDim_after {α : Type} {lt : α → α → Prop} {cmp : α → α → Ordering} (hd : Decides lt cmp)
    (r : GRange α) (x : α) (h : relPosDim cmp r x = .after) : r.openEnd = false ∧ ¬ lt x r.stop := by
  unfold relPosDim at h
  rw [← hd.beq_lt]
  split at h
  · split at h <;> simp_all
  · simp at h

theorem relPosWhole_iff (r : Range3d) (k : KdKey) : relPosWhole r k = .inRange ↔ InRange3d r k.pos := by
  unfold relPosWhole
  rw [← isIncluded3d_iff decides_subspace]
  split <;> simp_all

theorem keyOrder_first {x k : KdKey} {d : Nat} (h : keyOrderDim x k d ≠ .eq) :
    keyOrder x k d = keyOrderDim x k d := by
  unfold keyOrder keyOrderLoop
  split <;> simp_all

/-- A key before the range in the dimension of a node: everything to its left is before it too. -/
theorem left_before {α : Type} {lt : α → α → Prop} {cmp : α → α → Ordering} (ht : StrictTotal lt)
    (hd : Decides lt cmp) (r : GRange α) {x k : α} (hx : cmp x k ≠ .gt) (hk : relPosDim cmp r k = .before) :
    ¬ InRange lt r x := by
  rw [relPosDim_before hd] at hk
  rw [Ne, hd.gt_iff] at hx
  intro h
  exact h.1 (ht.lt_of_le_of_lt hx hk)

theorem right_after {α : Type} {lt : α → α → Prop} {cmp : α → α → Ordering} (ht : StrictTotal lt)
    (hd : Decides lt cmp) (r : GRange α) {x k : α} (hx : cmp x k ≠ .lt) (hk : relPosDim cmp r k = .after) :
    ¬ InRange lt r x := by
  obtain ⟨h1, h2⟩ := relPosDim_after hd _ _ hk
  rw [Ne, hd.lt_iff] at hx
  rintro ⟨_, h | h⟩
  · simp [h1] at h
  · exact h2 (ht.lt_of_le_of_lt hx h)

theorem keyOrderDim_ne_gt {x k : KdKey} {d : Nat} (h : keyOrder x k d ≠ .gt) : keyOrderDim x k d ≠ .gt := by
  intro h'
  rw [keyOrder_first (by simp [h'])] at h
  exact h h'

theorem keyOrderDim_ne_lt {x k : KdKey} {d : Nat} (h : keyOrder x k d ≠ .lt) : keyOrderDim x k d ≠ .lt := by
  intro h'
  rw [keyOrder_first (by simp [h'])] at h
  exact h h'

theorem skip_left {q : Range3d} {x k : KdKey} {d : Nat} (hd : d < 3) (hx : keyOrder x k d ≠ .gt)
    (hk : relPos q k d = .before) : ¬ InRange3d q x.pos := by
  have hx := keyOrderDim_ne_gt hx
  rintro ⟨h1, h2, h3⟩
  obtain rfl | rfl | rfl : d = 0 ∨ d = 1 ∨ d = 2 := by omega
  · exact left_before timeLt_strictTotal decides_time q.time (by simpa [keyOrderDim] using hx) (by simpa [relPos] using hk) h3
  · exact left_before bytesLt_strictTotal decides_bytes q.subspace (by simpa [keyOrderDim] using hx) (by simpa [relPos] using hk) h1
  · exact left_before pathLt_strictTotal decides_path q.path (by simpa [keyOrderDim] using hx) (by simpa [relPos] using hk) h2

theorem skip_right {q : Range3d} {x k : KdKey} {d : Nat} (hd : d < 3) (hx : keyOrder x k d ≠ .lt)
    (hk : relPos q k d = .after) : ¬ InRange3d q x.pos := by
  have hx := keyOrderDim_ne_lt hx
  rintro ⟨h1, h2, h3⟩
  obtain rfl | rfl | rfl : d = 0 ∨ d = 1 ∨ d = 2 := by omega
  · exact right_after timeLt_strictTotal decides_time q.time (by simpa [keyOrderDim] using hx) (by simpa [relPos] using hk) h3
  · exact right_after bytesLt_strictTotal decides_bytes q.subspace (by simpa [keyOrderDim] using hx) (by simpa [relPos] using hk) h1
  · exact right_after pathLt_strictTotal decides_path q.path (by simpa [keyOrderDim] using hx) (by simpa [relPos] using hk) h2

theorem relPos_of_in {q : Range3d} {k : KdKey} {d : Nat} (h : InRange3d q k.pos) : relPos q k d = .inRange := by
  obtain ⟨h1, h2, h3⟩ := h
  unfold relPos
  split
  · exact (relPosDim_inRange decides_time _ _).2 h3
  · split
    · exact (relPosDim_inRange decides_bytes _ _).2 h1
    · exact (relPosDim_inRange decides_path _ _).2 h2

/-- The pruning search is a filter of the keys. -/
theorem search_eq (q : Range3d) : ∀ (t : KdTree) (d : Nat), d < 3 → t.LaidOut d →
    t.search q d = t.keys.filter (fun k => isIncluded3d orderSubspace q k.pos) := by
  intro t
  have none : ∀ (l : List KdKey), (∀ x ∈ l, ¬ InRange3d q x.pos) →
      l.filter (fun k => isIncluded3d orderSubspace q k.pos) = [] := by
    intro l h
    rw [List.filter_eq_nil_iff]
    intro x hx
    rw [isIncluded3d_iff decides_subspace]
    exact h x hx
  induction t with
  | nil => intro d _ _; rfl
  | node k l r ihl ihr =>
    intro d hd ⟨h1, h2, h3, h4⟩
    have hd' : (d + 1) % 3 < 3 := Nat.mod_lt _ (by decide)
    unfold KdTree.search KdTree.keys
    rw [ihl _ hd' h3, ihr _ hd' h4, List.filter_cons, List.filter_append]
    split
    · rename_i hk
      have : ¬ InRange3d q k.pos := fun h => by rw [relPos_of_in h] at hk; cases hk
      rw [← isIncluded3d_iff decides_subspace] at this
      rw [if_neg this, none l.keys (fun x hx => skip_left hd (h1 x hx) hk), List.nil_append]
    · rename_i hk
      have : ¬ InRange3d q k.pos := fun h => by rw [relPos_of_in h] at hk; cases hk
      rw [← isIncluded3d_iff decides_subspace] at this
      rw [if_neg this, none r.keys (fun x hx => skip_right hd (h2 x hx) hk), List.append_nil]
    · unfold relPosWhole
      split <;> simp_all

theorem keyOrder_eq_iff (x k : KdKey) (d : Nat) (hd : d < 3) : keyOrder x k d = .eq ↔ x.pos = k.pos := by
  have hp : x.pos = k.pos ↔ x.pos.time = k.pos.time ∧ x.pos.subspace = k.pos.subspace ∧ x.pos.path = k.pos.path := by
    cases hx : x.pos; cases hk : k.pos; simp; constructor <;> simp_all
  rw [hp, ← decides_time.eq_iff, ← decides_bytes.eq_iff, ← decides_path.eq_iff]
  have e : ∀ o : Ordering, o = .eq ∨ o = .lt ∨ o = .gt := by intro o; cases o <;> simp
  obtain rfl | rfl | rfl : d = 0 ∨ d = 1 ∨ d = 2 := by omega
  all_goals
    rcases e (orderTimestamp x.pos.time k.pos.time) with h1 | h1 | h1 <;>
    rcases e (orderBytes x.pos.subspace k.pos.subspace) with h2 | h2 | h2 <;>
    rcases e (orderPath x.pos.path k.pos.path) with h3 | h3 | h3 <;>
    simp [keyOrder, keyOrderLoop, keyOrderDim, h1, h2, h3]

theorem keyOrder_swap (x k : KdKey) (d : Nat) (hd : d < 3) : keyOrder x k d = .lt ↔ keyOrder k x d = .gt := by
  have ht : ∀ o, orderTimestamp x.pos.time k.pos.time = o → orderTimestamp k.pos.time x.pos.time = o.swap := by
    intro o h; cases o <;> simp_all [decides_time.lt_iff, decides_time.gt_iff, decides_time.eq_iff, Ordering.swap]
  have hb : ∀ o, orderBytes x.pos.subspace k.pos.subspace = o → orderBytes k.pos.subspace x.pos.subspace = o.swap := by
    intro o h; cases o <;> simp_all [decides_bytes.lt_iff, decides_bytes.gt_iff, decides_bytes.eq_iff, Ordering.swap]
  have hp : ∀ o, orderPath x.pos.path k.pos.path = o → orderPath k.pos.path x.pos.path = o.swap := by
    intro o h; cases o <;> simp_all [decides_path.lt_iff, decides_path.gt_iff, decides_path.eq_iff, Ordering.swap]
  obtain rfl | rfl | rfl : d = 0 ∨ d = 1 ∨ d = 2 := by omega
  all_goals
    cases h1 : orderTimestamp x.pos.time k.pos.time <;>
    cases h2 : orderBytes x.pos.subspace k.pos.subspace <;>
    cases h3 : orderPath x.pos.path k.pos.path <;>
    simp [keyOrder, keyOrderLoop, keyOrderDim, h1, h2, h3, ht _ h1, hb _ h2, hp _ h3, Ordering.swap]

/-- Lexicographic combination of three comparisons. -/
def lex3 (a b c : Ordering) : Ordering :=
  match a with
  | .lt => .lt
  | .gt => .gt
  | .eq => match b with
    | .lt => .lt
    | .gt => .gt
    | .eq => c

theorem keyOrder_lex3 (x k : KdKey) (d : Nat) :
    keyOrder x k d = lex3 (keyOrderDim x k d) (keyOrderDim x k ((d + 1) % 3)) (keyOrderDim x k (((d + 1) % 3 + 1) % 3)) := by
  cases h1 : keyOrderDim x k d <;> cases h2 : keyOrderDim x k ((d + 1) % 3) <;>
    cases h3 : keyOrderDim x k (((d + 1) % 3 + 1) % 3) <;>
    simp only [keyOrder, keyOrderLoop, lex3, h1, h2, h3]

theorem keyOrderDim_trans (a b c : KdKey) (d : Nat) :
    (keyOrderDim a b d = .lt → keyOrderDim b c d = .lt → keyOrderDim a c d = .lt) ∧
    (keyOrderDim a b d = .lt → keyOrderDim b c d = .eq → keyOrderDim a c d = .lt) ∧
    (keyOrderDim a b d = .eq → keyOrderDim b c d = keyOrderDim a c d) := by
  unfold keyOrderDim
  split
  · simp only [decides_time.lt_iff, decides_time.eq_iff]
    exact ⟨timeLt_strictTotal.trans _ _ _, fun h1 h2 => h2 ▸ h1, fun h => by rw [h]⟩
  · split
    · simp only [decides_bytes.lt_iff, decides_bytes.eq_iff]
      exact ⟨bytesLt_strictTotal.trans _ _ _, fun h1 h2 => h2 ▸ h1, fun h => by rw [h]⟩
    · split
      · simp only [decides_path.lt_iff, decides_path.eq_iff]
        exact ⟨pathLt_strictTotal.trans _ _ _, fun h1 h2 => h2 ▸ h1, fun h => by rw [h]⟩
      · simp

theorem keyOrder_trans (a b c : KdKey) (d : Nat) (_ : d < 3) (h1 : keyOrder a b d = .lt)
    (h2 : keyOrder b c d = .lt) : keyOrder a c d = .lt := by
  rw [keyOrder_lex3] at *
  obtain ⟨a1, a2, a3⟩ := keyOrderDim_trans a b c d
  obtain ⟨b1, b2, b3⟩ := keyOrderDim_trans a b c ((d + 1) % 3)
  obtain ⟨c1, c2, c3⟩ := keyOrderDim_trans a b c (((d + 1) % 3 + 1) % 3)
  revert h1 h2 a1 a2 a3 b1 b2 b3 c1 c2 c3
  generalize keyOrderDim a b d = x1
  generalize keyOrderDim b c d = y1
  generalize keyOrderDim a c d = z1
  generalize keyOrderDim a b ((d + 1) % 3) = x2
  generalize keyOrderDim b c ((d + 1) % 3) = y2
  generalize keyOrderDim a c ((d + 1) % 3) = z2
  generalize keyOrderDim a b (((d + 1) % 3 + 1) % 3) = x3
  generalize keyOrderDim b c (((d + 1) % 3 + 1) % 3) = y3
  generalize keyOrderDim a c (((d + 1) % 3 + 1) % 3) = z3
  cases x1 <;> cases y1 <;> cases z1 <;> simp [lex3] <;>
  cases x2 <;> cases y2 <;> cases z2 <;> simp <;>
  cases x3 <;> cases y3 <;> cases z3 <;> simp

end Willow
