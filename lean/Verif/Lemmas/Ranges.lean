import Verif.Lemmas.Order
import Verif.Model.Areas

set_option linter.unusedSimpArgs false

namespace Willow
open Spec

section
variable {α : Type} {lt : α → α → Prop} {cmp : α → α → Ordering}

theorem Spec.Decides.bne_lt (h : Decides lt cmp) (a b : α) : (cmp a b != .lt) = true ↔ ¬ lt a b := by
  rw [← h.lt_iff]; cases cmp a b <;> simp
theorem Spec.Decides.bne_gt (h : Decides lt cmp) (a b : α) : (cmp a b != .gt) = true ↔ ¬ lt b a := by
  rw [← h.gt_iff]; cases cmp a b <;> simp
theorem Spec.Decides.beq_lt (h : Decides lt cmp) (a b : α) : (cmp a b == .lt) = true ↔ lt a b := by
  rw [← h.lt_iff]; cases cmp a b <;> simp
theorem Spec.Decides.beq_gt (h : Decides lt cmp) (a b : α) : (cmp a b == .gt) = true ↔ lt b a := by
  rw [← h.gt_iff]; cases cmp a b <;> simp
theorem Spec.Decides.beq_eq (h : Decides lt cmp) (a b : α) : (cmp a b == .eq) = true ↔ a = b := by
  rw [← h.eq_iff]; cases cmp a b <;> simp
theorem Spec.Decides.bne_eq (h : Decides lt cmp) (a b : α) : (cmp a b != .eq) = true ↔ a ≠ b := by
  rw [ne_eq, ← h.eq_iff]; cases cmp a b <;> simp

theorem isIncludedRange_iff (hd : Decides lt cmp) (r : GRange α) (x : α) :
    isIncludedRange cmp r x = true ↔ InRange lt r x := by
  unfold isIncludedRange InRange
  have h1 := hd.bne_lt x r.start
  have h2 := hd.beq_lt x r.stop
  revert h1 h2
  cases (cmp x r.start != .lt) <;> cases (cmp x r.stop == .lt) <;> cases r.openEnd <;> simp +contextual

theorem isValidRange_iff (hd : Decides lt cmp) (r : GRange α) :
    isValidRange cmp r = true ↔ ValidRange lt r := by
  unfold isValidRange ValidRange
  have h2 := hd.beq_lt r.start r.stop
  revert h2
  cases (cmp r.start r.stop == .lt) <;> cases r.openEnd <;> simp +contextual

/-- What an exact intersection is. -/
def IsInter (lt : α → α → Prop) (a b : GRange α) : Option (GRange α) → Prop
  | some r => ValidRange lt r ∧ ∀ x, InRange lt r x ↔ InRange lt a x ∧ InRange lt b x
  | none => ∀ x, ¬ (InRange lt a x ∧ InRange lt b x)

theorem isInter_symm {a b : GRange α} : ∀ {o : Option (GRange α)}, IsInter lt a b o → IsInter lt b a o
  | some _, h => ⟨h.1, fun x => (h.2 x).trans And.comm⟩
  | none, h => fun x hx => h x hx.symm

theorem start_in (ht : StrictTotal lt) {r : GRange α} (hv : ValidRange lt r) : InRange lt r r.start :=
  ⟨ht.irrefl _, hv⟩

theorem intersectRange_isInter (dflt : α) (ht : StrictTotal lt) (hd : Decides lt cmp) (a b : GRange α)
    (ha : ValidRange lt a) (hb : ValidRange lt b) : IsInter lt a b (intersectRange dflt cmp a b) := by
  obtain ⟨as, ae, ao⟩ := a
  obtain ⟨bs, be, bo⟩ := b
  have e1 := fun x y => hd.bne_gt x y
  have e2 := fun x y => hd.bne_lt x y
  have e3 := fun x y => hd.beq_lt x y
  have e4 := fun x y => hd.beq_gt x y
  have hirr := ht.irrefl
  have htr := ht.trans
  have htri := ht.tri
  cases ao <;> cases bo <;>
    simp only [intersectRange, orderRangePair, Bool.not_true, Bool.not_false, Bool.and_true, Bool.true_and,
      Bool.and_false, Bool.false_and, Bool.or_false, Bool.or_true, Bool.false_or, Bool.true_or, Bool.false_eq_true,
      if_true, if_false, e1, e2, e3, Bool.and_eq_true, e4] <;>
    simp only [ValidRange, Bool.false_eq_true, false_or, true_or] at ha hb <;>
    (repeat' split) <;>
    simp only [IsInter, ValidRange, InRange, Bool.false_eq_true, false_or, true_or, and_true] <;>
    grind


theorem rangeIsIncluded_sound (ht : StrictTotal lt) (hd : Decides lt cmp) (parent child : GRange α)
    (h : rangeIsIncluded cmp parent child = true) : ∀ x, InRange lt child x → InRange lt parent x := by
  obtain ⟨as, ae, ao⟩ := parent
  obtain ⟨bs, be, bo⟩ := child
  have e1 := fun x y => hd.bne_gt x y
  have e2 := fun x y => hd.bne_lt x y
  have hirr := ht.irrefl
  have htr := ht.trans
  have htri := ht.tri
  cases ao <;> cases bo <;>
    simp only [rangeIsIncluded, Bool.not_true, Bool.not_false, Bool.and_true,
      Bool.and_false, Bool.false_eq_true, if_true, if_false, Bool.not_eq_true', Bool.if_false_left,
      Bool.and_eq_true, Bool.not_not, e1, e2] at h <;>
    simp only [InRange, Bool.false_eq_true, false_or, true_or, and_true] <;>
    grind

theorem rangeIsIncluded_complete (ht : StrictTotal lt) (hd : Decides lt cmp) (parent child : GRange α)
    (hv : ValidRange lt child)
    (h : ∀ x, InRange lt child x → InRange lt parent x) : rangeIsIncluded cmp parent child = true := by
  obtain ⟨as, ae, ao⟩ := parent
  obtain ⟨bs, be, bo⟩ := child
  have e1 := fun x y => hd.bne_gt x y
  have e2 := fun x y => hd.bne_lt x y
  have hirr := ht.irrefl
  have htr := ht.trans
  have htri := ht.tri
  have h1 := h bs
  have h2 := h ae
  cases ao <;> cases bo <;>
    simp only [rangeIsIncluded, Bool.not_true, Bool.not_false, Bool.and_true,
      Bool.and_false, Bool.false_eq_true, if_true, if_false, Bool.not_eq_true', Bool.if_false_left,
      Bool.and_eq_true, Bool.not_not, e1, e2] <;>
    simp only [InRange, ValidRange, Bool.false_eq_true, false_or, true_or, and_true] at h1 h2 hv <;>
    grind
end

theorem isIncluded3d_iff {ordS : Bytes → Bytes → Ordering} (hd : Decides BytesLt ordS) (r : Range3d) (x : Position) :
    isIncluded3d ordS r x = true ↔ InRange3d r x := by
  unfold isIncluded3d InRange3d
  rw [← isIncludedRange_iff hd, ← isIncludedRange_iff decides_path, ← isIncludedRange_iff decides_time]
  cases isIncludedRange orderTimestamp r.time x.time <;> cases isIncludedRange orderPath r.path x.path <;>
    cases isIncludedRange ordS r.subspace x.subspace <;> simp

theorem isValidRange3d_iff {ordS : Bytes → Bytes → Ordering} (hd : Decides BytesLt ordS) (r : Range3d) :
    isValidRange3d ordS r = true ↔ ValidRange3d r := by
  unfold isValidRange3d ValidRange3d
  rw [← isValidRange_iff hd, ← isValidRange_iff decides_path, ← isValidRange_iff decides_time]
  cases isValidRange orderTimestamp r.time <;> cases isValidRange orderPath r.path <;>
    cases isValidRange ordS r.subspace <;> simp

theorem intersectRange3d_some {ordS : Bytes → Bytes → Ordering} (hd : Decides BytesLt ordS) (a b : Range3d)
    (ha : ValidRange3d a) (hb : ValidRange3d b) {r : Range3d} (h : intersectRange3d ordS a b = some r) :
    ValidRange3d r ∧ ∀ x, InRange3d r x ↔ InRange3d a x ∧ InRange3d b x := by
  have h1 := intersectRange_isInter 0 timeLt_strictTotal decides_time a.time b.time ha.2.2 hb.2.2
  have h2 := intersectRange_isInter [] bytesLt_strictTotal hd a.subspace b.subspace ha.1 hb.1
  have h3 := intersectRange_isInter [] pathLt_strictTotal decides_path a.path b.path ha.2.1 hb.2.1
  unfold intersectRange3d at h
  split at h
  · simp at h
  · rename_i t ht
    split at h
    · simp at h
    · rename_i s hs
      split at h
      · simp at h
      · rename_i p hp
        simp only [Option.some.injEq] at h
        subst h
        rw [ht] at h1; rw [hs] at h2; rw [hp] at h3
        refine ⟨⟨h2.1, h3.1, h1.1⟩, fun x => ?_⟩
        simp only [InRange3d, h1.2, h2.2, h3.2]
        grind

theorem intersectRange3d_none {ordS : Bytes → Bytes → Ordering} (hd : Decides BytesLt ordS) (a b : Range3d)
    (ha : ValidRange3d a) (hb : ValidRange3d b) (h : intersectRange3d ordS a b = none) :
    ∀ x, ¬ (InRange3d a x ∧ InRange3d b x) := by
  have h1 := intersectRange_isInter 0 timeLt_strictTotal decides_time a.time b.time ha.2.2 hb.2.2
  have h2 := intersectRange_isInter [] bytesLt_strictTotal hd a.subspace b.subspace ha.1 hb.1
  have h3 := intersectRange_isInter [] pathLt_strictTotal decides_path a.path b.path ha.2.1 hb.2.1
  intro x hx
  unfold intersectRange3d at h
  split at h
  · rename_i ht; rw [ht] at h1; exact h1 x.time ⟨hx.1.2.2, hx.2.2.2⟩
  · split at h
    · rename_i hs; rw [hs] at h2; exact h2 x.subspace ⟨hx.1.1, hx.2.1⟩
    · split at h
      · rename_i hp; rw [hp] at h3; exact h3 x.path ⟨hx.1.2.1, hx.2.2.1⟩
      · simp at h

theorem isIncludedArea_iff {ordS : Bytes → Bytes → Ordering} (hd : Decides BytesLt ordS) (a : Area) (x : Position) :
    isIncludedArea ordS a x = true ↔ InArea a x := by
  unfold isIncludedArea InArea isSubspaceIncludedInArea
  have h1 := hd.beq_eq a.subspace x.subspace
  rw [← isPathPrefixed_iff, ← isIncludedRange_iff decides_time, eq_comm (a := x.subspace), ← h1]
  cases a.anySubspace <;> cases (ordS a.subspace x.subspace == .eq) <;>
    cases isIncludedRange orderTimestamp a.times x.time <;> simp

theorem areaIsIncluded_iff {ordS : Bytes → Bytes → Ordering} (hd : Decides BytesLt ordS) (inner outer : Area) :
    areaIsIncluded ordS inner outer = true ↔
      (outer.anySubspace = true ∨ (inner.anySubspace = false ∧ inner.subspace = outer.subspace)) ∧
      outer.path <+: inner.path ∧ rangeIsIncluded orderTimestamp outer.times inner.times = true := by
  unfold areaIsIncluded
  have h1 := hd.bne_eq outer.subspace inner.subspace
  have e : inner.subspace = outer.subspace ↔ ¬ (ordS outer.subspace inner.subspace != .eq) = true := by
    rw [h1]; simp [eq_comm]
  rw [e, ← isPathPrefixed_iff]
  cases inner.anySubspace <;> cases outer.anySubspace <;> cases (ordS outer.subspace inner.subspace != .eq) <;>
    cases isPathPrefixed outer.path inner.path <;>
    cases rangeIsIncluded orderTimestamp outer.times inner.times <;> simp

theorem areaIsIncluded_sound {ordS : Bytes → Bytes → Ordering} (hd : Decides BytesLt ordS) (inner outer : Area)
    (h : areaIsIncluded ordS inner outer = true) : ∀ x, InArea inner x → InArea outer x := by
  obtain ⟨h1, h2, h3⟩ := (areaIsIncluded_iff hd inner outer).1 h
  rintro x ⟨g1, g2, g3⟩
  refine ⟨?_, h2.trans g2, rangeIsIncluded_sound timeLt_strictTotal decides_time _ _ h3 _ g3⟩
  rcases h1 with h1 | ⟨h1, h1'⟩
  · exact .inl h1
  · rcases g1 with g1 | g1
    · simp [h1] at g1
    · exact .inr (g1.trans h1')

end Willow
