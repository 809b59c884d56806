import Verif.Lemmas.Ranges
import Verif.Lemmas.Successor

/-! Property theorems C01-C10: orders, ranges, areas. -/

namespace Willow.Props
open Willow Spec

/-! ## C01 -/

/-- C01: `OrderBytes` decides the lexicographic order on byte strings. -/
theorem C01_orderBytes_decides : Decides BytesLt orderBytes := decides_bytes

/-- C01: the lexicographic order on byte strings is a strict total order. -/
theorem C01_bytes_strictTotal : StrictTotal BytesLt := bytesLt_strictTotal

/-- C01: swapping the arguments flips the answer. -/
theorem C01_orderBytes_swap (a b : Bytes) : orderBytes b a = (orderBytes a b).swap := by
  cases h : orderBytes a b with
  | lt => exact (decides_bytes.gt_iff b a).2 ((decides_bytes.lt_iff a b).1 h)
  | eq => exact (decides_bytes.eq_iff b a).2 ((decides_bytes.eq_iff a b).1 h).symm
  | gt => exact (decides_bytes.lt_iff b a).2 ((decides_bytes.gt_iff a b).1 h)

example : orderBytes [1, 3] [1, 2, 0] = (orderBytes [1, 2, 0] [1, 3]).swap ∧ orderBytes [1, 2, 0] [1, 3] = .lt := by decide

/-- C01: `Less` is transitive. -/
theorem C01_orderBytes_trans (a b c : Bytes) (h1 : orderBytes a b = .lt) (h2 : orderBytes b c = .lt) :
    orderBytes a c = .lt :=
  (decides_bytes.lt_iff a c).2 (bytesLt_strictTotal.trans a b c
    ((decides_bytes.lt_iff a b).1 h1) ((decides_bytes.lt_iff b c).1 h2))

example : orderBytes [1, 2] [1, 2, 0] = .lt ∧ orderBytes [1, 2, 0] [1, 3] = .lt ∧
    orderBytes [1, 2] [1, 3] = .lt := by decide

/-- C01: timestamps are compared numerically. -/
theorem C01_orderTimestamp_decides : Decides TimeLt orderTimestamp := decides_time

/-! ## C02 -/

/-- C02: `OrderPath` decides the componentwise lexicographic order. -/
theorem C02_orderPath_decides : Decides PathLt orderPath := decides_path

/-- C02: the order on paths is a strict total order. -/
theorem C02_path_strictTotal : StrictTotal PathLt := pathLt_strictTotal

/-- C02: the prefix test is the prefix relation. -/
theorem C02_isPathPrefixed (a b : Path) : isPathPrefixed a b = true ↔ a <+: b := isPathPrefixed_iff a b

example : isPathPrefixed [[1], [2]] [[1], [2], [3]] = true ∧ isPathPrefixed [[1], [2]] [[1], [2, 3]] = false := by decide

/-- C02: a path is never greater than a path it prefixes. -/
theorem C02_prefix_not_greater (a b : Path) (h : a <+: b) : orderPath a b ≠ .gt := by
  rw [ne_eq, decides_path.gt_iff]
  exact prefix_not_lt bytesLt_strictTotal h

example : ([[1], [2]] : Path) <+: [[1], [2], []] := by decide

/-- C02: the extensions of a path form an interval. -/
theorem C02_extensions_interval (p q r : Path) (h1 : orderPath q p ≠ .lt) (h2 : orderPath r q ≠ .lt)
    (h : p <+: r) : p <+: q := by
  rw [ne_eq, decides_path.lt_iff] at h1 h2
  exact prefix_of_between bytesLt_strictTotal h1 h2 h

example : orderPath [[1], [0]] [[1]] ≠ .lt ∧ orderPath [[1], [7]] [[1], [0]] ≠ .lt ∧
    ([[1]] : Path) <+: [[1], [7]] := by decide

/-! ## C03 -/

/-- C03: the hexadecimal comparison of subspace ids agrees with the byte comparison. -/
theorem C03_orderSubspace_eq_orderBytes (a b : Bytes) : orderSubspace a b = orderBytes a b :=
  decides_unique decides_subspace decides_bytes a b

example : orderSubspace [9, 255] [10] = .lt ∧ orderSubspace [0x9f] [0xa0] = .lt := by decide

/-! ## C04 -/

/-- C04: membership in a range, for any comparison that decides an order. -/
theorem C04_isIncludedRange {α : Type} {lt : α → α → Prop} {cmp : α → α → Ordering}
    (hd : Decides lt cmp) (r : GRange α) (x : α) :
    isIncludedRange cmp r x = true ↔ ¬ lt x r.start ∧ (r.openEnd = true ∨ lt x r.stop) :=
  isIncludedRange_iff hd r x

example : Decides PathLt orderPath ∧ isIncludedRange orderPath ⟨[[1]], [[1], [5]], false⟩ [[1], [2]] = true ∧
    isIncludedRange orderPath ⟨[[1]], [[1], [5]], false⟩ [[1], [5]] = false := ⟨decides_path, by decide, by decide⟩

/-- C04: membership in a three-dimensional range. -/
theorem C04_isIncluded3d (r : Range3d) (x : Position) :
    isIncluded3d orderSubspace r x = true ↔ InRange3d r x := isIncluded3d_iff decides_subspace r x

example : isIncluded3d orderSubspace ⟨⟨[1], [3], false⟩, ⟨[[1]], [], true⟩, ⟨2, 9, false⟩⟩ ⟨[2], [[1], [1]], 8⟩ = true ∧
    isIncluded3d orderSubspace ⟨⟨[1], [3], false⟩, ⟨[[1]], [], true⟩, ⟨2, 9, false⟩⟩ ⟨[2], [[1], [1]], 9⟩ = false := by decide

/-- C04: the validity checks. -/
theorem C04_isValidRange3d (r : Range3d) :
    isValidRange3d orderSubspace r = true ↔ ValidRange3d r := isValidRange3d_iff decides_subspace r

example : Decides TimeLt orderTimestamp ∧
    isIncludedRange orderTimestamp ⟨3, 5, false⟩ 3 = true ∧ isIncludedRange orderTimestamp ⟨3, 5, false⟩ 5 = false :=
  ⟨decides_time, by decide, by decide⟩

/-! ## C05 -/

/-- C05: when `IntersectRange` succeeds the result is valid and contains exactly the common
values (in particular there is one: the start of the result). -/
theorem C05_intersectRange_some {α : Type} {lt : α → α → Prop} {cmp : α → α → Ordering}
    (ht : StrictTotal lt) (hd : Decides lt cmp) (dflt : α) (a b r : GRange α)
    (ha : ValidRange lt a) (hb : ValidRange lt b) (h : intersectRange dflt cmp a b = some r) :
    (∀ x, InRange lt r x ↔ InRange lt a x ∧ InRange lt b x) ∧
      ∃ x, InRange lt a x ∧ InRange lt b x := by
  have := intersectRange_isInter dflt ht hd a b ha hb
  rw [h] at this
  exact ⟨this.2, r.start, (this.2 _).1 (start_in ht this.1)⟩

example : StrictTotal TimeLt ∧ Decides TimeLt orderTimestamp ∧ ValidRange TimeLt ⟨3, 9, false⟩ ∧ ValidRange TimeLt ⟨5, 12, false⟩ ∧
    intersectRange 0 orderTimestamp ⟨3, 9, false⟩ ⟨5, 12, false⟩ = some ⟨5, 9, false⟩ :=
  ⟨timeLt_strictTotal, decides_time, .inr (by show (3 : UInt64) < 9; decide), .inr (by show (5 : UInt64) < 12; decide), by decide⟩

/-- C05: when `IntersectRange` fails the ranges have no value in common. -/
theorem C05_intersectRange_none {α : Type} {lt : α → α → Prop} {cmp : α → α → Ordering}
    (ht : StrictTotal lt) (hd : Decides lt cmp) (dflt : α) (a b : GRange α)
    (ha : ValidRange lt a) (hb : ValidRange lt b) (h : intersectRange dflt cmp a b = none) :
    ∀ x, ¬ (InRange lt a x ∧ InRange lt b x) := by
  have := intersectRange_isInter dflt ht hd a b ha hb
  rwa [h] at this

example : ValidRange TimeLt ⟨3, 9, false⟩ ∧ ValidRange TimeLt ⟨9, 12, false⟩ ∧
    intersectRange 0 orderTimestamp ⟨3, 9, false⟩ ⟨9, 12, false⟩ = none :=
  ⟨.inr (by show (3 : UInt64) < 9; decide), .inr (by show (9 : UInt64) < 12; decide), by decide⟩

/-- C05: the argument order does not matter. -/
theorem C05_intersectRange_comm {α : Type} {lt : α → α → Prop} {cmp : α → α → Ordering}
    (ht : StrictTotal lt) (hd : Decides lt cmp) (dflt : α) (a b : GRange α)
    (ha : ValidRange lt a) (hb : ValidRange lt b) :
    (intersectRange dflt cmp a b).isSome = (intersectRange dflt cmp b a).isSome ∧
    ∀ r r', intersectRange dflt cmp a b = some r → intersectRange dflt cmp b a = some r' →
      ∀ x, InRange lt r x ↔ InRange lt r' x := by
  have h1 := intersectRange_isInter dflt ht hd a b ha hb
  have h2 := intersectRange_isInter dflt ht hd b a hb ha
  constructor
  · cases e1 : intersectRange dflt cmp a b with
    | none =>
      cases e2 : intersectRange dflt cmp b a with
      | none => rfl
      | some r =>
        rw [e1] at h1; rw [e2] at h2
        exact absurd ((h2.2 _).1 (start_in ht h2.1)).symm (h1 _)
    | some r =>
      cases e2 : intersectRange dflt cmp b a with
      | some r => rfl
      | none =>
        rw [e1] at h1; rw [e2] at h2
        exact absurd ((h1.2 _).1 (start_in ht h1.1)).symm (h2 _)
  · intro r r' e1 e2 x
    rw [e1] at h1; rw [e2] at h2
    rw [h1.2, h2.2, And.comm]

example : ValidRange TimeLt ⟨3, 9, false⟩ ∧ ValidRange TimeLt ⟨5, 0, true⟩ ∧
    intersectRange 0 orderTimestamp ⟨3, 9, false⟩ ⟨5, 0, true⟩ = some ⟨5, 9, false⟩ ∧
    intersectRange 0 orderTimestamp ⟨5, 0, true⟩ ⟨3, 9, false⟩ = some ⟨5, 9, false⟩ :=
  ⟨.inr (by show (3 : UInt64) < 9; decide), .inl rfl, by decide, by decide⟩

/-- C05 for three-dimensional ranges. -/
theorem C05_intersectRange3d_some (a b r : Range3d) (ha : ValidRange3d a) (hb : ValidRange3d b)
    (h : intersectRange3d orderSubspace a b = some r) :
    (∀ x, InRange3d r x ↔ InRange3d a x ∧ InRange3d b x) ∧ ∃ x, InRange3d a x ∧ InRange3d b x := by
  have := intersectRange3d_some decides_subspace a b ha hb h
  refine ⟨this.2, ⟨r.subspace.start, r.path.start, r.time.start⟩, (this.2 _).1 ⟨?_, ?_, ?_⟩⟩
  · exact start_in bytesLt_strictTotal this.1.1
  · exact start_in pathLt_strictTotal this.1.2.1
  · exact start_in timeLt_strictTotal this.1.2.2

example : ValidRange3d ⟨⟨[1], [3], false⟩, ⟨[[1]], [], true⟩, ⟨2, 9, false⟩⟩ ∧ ValidRange3d ⟨⟨[2], [], true⟩, ⟨[], [[4]], false⟩, ⟨5, 0, true⟩⟩ ∧
    intersectRange3d orderSubspace ⟨⟨[1], [3], false⟩, ⟨[[1]], [], true⟩, ⟨2, 9, false⟩⟩ ⟨⟨[2], [], true⟩, ⟨[], [[4]], false⟩, ⟨5, 0, true⟩⟩ =
      some ⟨⟨[2], [3], false⟩, ⟨[[1]], [[4]], false⟩, ⟨5, 9, false⟩⟩ := by
  refine ⟨?_, ?_, by decide⟩ <;> rw [← isValidRange3d_iff decides_subspace] <;> decide

theorem C05_intersectRange3d_none (a b : Range3d) (ha : ValidRange3d a) (hb : ValidRange3d b)
    (h : intersectRange3d orderSubspace a b = none) : ∀ x, ¬ (InRange3d a x ∧ InRange3d b x) :=
  intersectRange3d_none decides_subspace a b ha hb h

example : ValidRange TimeLt ⟨3, 9, false⟩ ∧ ValidRange TimeLt ⟨5, 0, true⟩ ∧
    intersectRange 0 orderTimestamp ⟨3, 9, false⟩ ⟨5, 0, true⟩ = some ⟨5, 9, false⟩ :=
  ⟨.inr (by show (3 : UInt64) < 9; decide), .inl rfl, by decide⟩

example : ValidRange TimeLt ⟨3, 5, false⟩ ∧ ValidRange TimeLt ⟨5, 9, false⟩ ∧
    intersectRange 0 orderTimestamp ⟨3, 5, false⟩ ⟨5, 9, false⟩ = none :=
  ⟨.inr (by show (3 : UInt64) < 5; decide), .inr (by show (5 : UInt64) < 9; decide), by decide⟩

/-- Two overlapping three-dimensional ranges, used as an example below. -/
def exR1 : Range3d := ⟨⟨[1], [3], false⟩, ⟨[], [], true⟩, ⟨3, 9, false⟩⟩
def exR2 : Range3d := ⟨⟨[2], [], true⟩, ⟨[[1]], [[2]], false⟩, ⟨0, 0, true⟩⟩

example : ValidRange3d exR1 ∧ ValidRange3d exR2 ∧
    intersectRange3d orderSubspace exR1 exR2 =
      some ⟨⟨[2], [3], false⟩, ⟨[[1]], [[2]], false⟩, ⟨3, 9, false⟩⟩ := by
  rw [← isValidRange3d_iff decides_subspace, ← isValidRange3d_iff decides_subspace]
  decide

/-! ## C06 -/

/-- C06: the inclusion test is sound, for all ranges. -/
theorem C06_rangeIsIncluded_sound {α : Type} {lt : α → α → Prop} {cmp : α → α → Ordering}
    (ht : StrictTotal lt) (hd : Decides lt cmp) (parent child : GRange α)
    (h : rangeIsIncluded cmp parent child = true) : ∀ x, InRange lt child x → InRange lt parent x :=
  rangeIsIncluded_sound ht hd parent child h

example : rangeIsIncluded orderPath ⟨[[1]], [], true⟩ ⟨[[1], [2]], [[3]], false⟩ = true ∧
    rangeIsIncluded orderPath ⟨[[1]], [[2]], false⟩ ⟨[[1], [2]], [[3]], false⟩ = false := by decide

/-- C06: the inclusion test is complete for a child that is not empty. -/
theorem C06_rangeIsIncluded_iff {α : Type} {lt : α → α → Prop} {cmp : α → α → Ordering}
    (ht : StrictTotal lt) (hd : Decides lt cmp) (parent child : GRange α)
    (hne : ∃ x, InRange lt child x) :
    rangeIsIncluded cmp parent child = true ↔ ∀ x, InRange lt child x → InRange lt parent x := by
  refine ⟨rangeIsIncluded_sound ht hd parent child, rangeIsIncluded_complete ht hd parent child ?_⟩
  obtain ⟨x, h1, h2⟩ := hne
  rcases h2 with h2 | h2
  · exact .inl h2
  · exact .inr (ht.lt_of_le_of_lt h1 h2)

example : (∃ x, InRange TimeLt ⟨4, 6, false⟩ x) ∧ rangeIsIncluded orderTimestamp ⟨3, 9, false⟩ ⟨4, 6, false⟩ = true :=
  ⟨⟨4, by rw [← isIncludedRange_iff decides_time]; decide⟩, by decide⟩

/-! ## C07 -/

/-- An endpoint of a range: the start, or the end unless the range is open-ended. -/
def endpoint {α : Type} (r : GRange α) (isStart : Bool) : Option α :=
  if isStart then some r.start else if r.openEnd then none else some r.stop

/-- C07 is violated: two open-ended ranges are reported to have equal starts. -/
theorem C07_violated : ∃ a b : GRange UInt64,
    isEqualRangeValue orderTimestamp a true b true = true ∧ endpoint a true ≠ endpoint b true :=
  ⟨⟨1, 0, true⟩, ⟨2, 0, true⟩, by decide, by decide⟩

/-- C07 is violated in the other direction too: equal starts are not recognised when one of
the ranges is open-ended. -/
theorem C07_violated_missed : ∃ a b : GRange UInt64,
    isEqualRangeValue orderTimestamp a true b true = false ∧ endpoint a true = endpoint b true :=
  ⟨⟨1, 0, true⟩, ⟨1, 5, false⟩, by decide, by decide⟩

/-- C07, partial: the answer is right when neither range is open-ended, and when the end of
both is asked for. Missing: comparisons involving the start of an open-ended range. -/
theorem C07_isEqualRangeValue_partial {α : Type} {lt : α → α → Prop} {cmp : α → α → Ordering}
    (hd : Decides lt cmp) (a b : GRange α) (sa sb : Bool)
    (h : (a.openEnd = false ∧ b.openEnd = false) ∨ (sa = false ∧ sb = false)) :
    isEqualRangeValue cmp a sa b sb = true ↔ endpoint a sa = endpoint b sb := by
  obtain ⟨as, ae, ao⟩ := a
  obtain ⟨bs, be, bo⟩ := b
  have e := fun x y => hd.beq_eq x y
  cases ao <;> cases bo <;> cases sa <;> cases sb <;>
    simp [isEqualRangeValue, endpoint] at h ⊢ <;> simp [hd.eq_iff]

example : (⟨1, 5, false⟩ : GRange UInt64).openEnd = false := rfl

/-- C07: the answer is wrong exactly when both ranges are open-ended and an endpoint asked for of one is no endpoint
asked for of the other, or when just one of them is, its start is asked for, and it is the endpoint asked for of the
other. -/
theorem C07_exact {α : Type} {lt : α → α → Prop} {cmp : α → α → Ordering} (hd : Decides lt cmp) (a b : GRange α)
    (sa sb : Bool) :
    ¬ (isEqualRangeValue cmp a sa b sb = true ↔ endpoint a sa = endpoint b sb) ↔
      (a.openEnd = true ∧ b.openEnd = true ∧ endpoint a sa ≠ endpoint b sb) ∨
      (a.openEnd = true ∧ b.openEnd = false ∧ sa = true ∧ some a.start = endpoint b sb) ∨
      (a.openEnd = false ∧ b.openEnd = true ∧ sb = true ∧ endpoint a sa = some b.start) := by
  obtain ⟨as, ae, ao⟩ := a
  obtain ⟨bs, be, bo⟩ := b
  cases ao <;> cases bo <;> cases sa <;> cases sb <;>
    simp [isEqualRangeValue, endpoint, hd.eq_iff]

example : ¬ (isEqualRangeValue orderTimestamp ⟨1, 0, true⟩ true ⟨1, 5, false⟩ true = true ↔
    endpoint (⟨1, 0, true⟩ : GRange UInt64) true = endpoint ⟨1, 5, false⟩ true) :=
  (C07_exact decides_time ⟨1, 0, true⟩ ⟨1, 5, false⟩ true true).2 (.inr (.inl (by decide)))

/-! ## C08 -/

/-- C08: area membership. -/
theorem C08_isIncludedArea (a : Area) (x : Position) :
    isIncludedArea orderSubspace a x = true ↔ InArea a x := isIncludedArea_iff decides_subspace a x

example : isIncludedArea orderSubspace ⟨[7], false, [[1]], ⟨2, 9, false⟩⟩ ⟨[7], [[1], [2]], 8⟩ = true ∧
    isIncludedArea orderSubspace ⟨[7], false, [[1]], ⟨2, 9, false⟩⟩ ⟨[7], [[2]], 8⟩ = false := by decide

/-- C08: the full area contains every position. -/
theorem C08_fullArea (x : Position) : isIncludedArea orderSubspace fullArea x = true := by
  rw [C08_isIncludedArea]
  refine ⟨.inl rfl, by simp [fullArea], ?_, .inl rfl⟩
  show ¬ x.time.toNat < (0 : UInt64).toNat
  simp

example : isIncludedArea orderSubspace fullArea ⟨[7], [[1], [2]], 8⟩ = true := by decide

/-- C08: a subspace area contains exactly the positions of its subspace. -/
theorem C08_subspaceArea (s : Bytes) (x : Position) :
    isIncludedArea orderSubspace (subspaceArea s) x = true ↔ x.subspace = s := by
  rw [C08_isIncludedArea]
  have h0 : ¬ x.time.toNat < (0 : UInt64).toNat := by simp
  constructor
  · rintro ⟨h | h, _⟩
    · simp [subspaceArea] at h
    · exact h
  · intro h
    exact ⟨.inr h, by simp [subspaceArea], h0, .inl rfl⟩

example : isIncludedArea orderSubspace (subspaceArea [7]) ⟨[7], [[1], [2]], 8⟩ = true ∧
    isIncludedArea orderSubspace (subspaceArea [7]) ⟨[7, 0], [[1], [2]], 8⟩ = false := by decide

/-! ## C09 -/

/-- C09: area inclusion, for an inner area with at least one position. -/
theorem C09_areaIsIncluded_iff (inner outer : Area) (hne : ∃ x, InArea inner x) :
    areaIsIncluded orderSubspace inner outer = true ↔ ∀ x, InArea inner x → InArea outer x := by
  obtain ⟨x0, hx0⟩ := hne
  constructor
  · exact areaIsIncluded_sound decides_subspace inner outer
  · intro h
    rw [areaIsIncluded_iff decides_subspace]
    refine ⟨?_, ?_, ?_⟩
    · cases ho : outer.anySubspace with
      | true => exact .inl rfl
      | false =>
        right
        cases hi : inner.anySubspace with
        | true =>
          have := (h ⟨outer.subspace ++ [0], x0.path, x0.time⟩ ⟨.inl hi, hx0.2.1, hx0.2.2⟩).1
          simp [ho] at this
        | false =>
          have := (h x0 hx0).1
          have h0 := hx0.1
          simp [hi] at h0
          simp [ho] at this
          exact ⟨rfl, h0.symm.trans this⟩
    · exact (h ⟨x0.subspace, inner.path, x0.time⟩ ⟨hx0.1, List.prefix_refl _, hx0.2.2⟩).2.1
    · apply (C06_rangeIsIncluded_iff timeLt_strictTotal decides_time _ _ ⟨x0.time, hx0.2.2⟩).2
      intro t ht
      exact (h ⟨x0.subspace, x0.path, t⟩ ⟨hx0.1, hx0.2.1, ht⟩).2.2

example : (∃ x, InArea (subspaceArea [1]) x) ∧ areaIsIncluded orderSubspace (subspaceArea [1]) fullArea = true :=
  ⟨⟨⟨[1], [], 0⟩, by rw [← isIncludedArea_iff decides_subspace]; decide⟩, by decide⟩

/-! ## C10 -/

/-- C10: the intersection fails exactly when the areas have no position in common. -/
theorem C10_intersectArea_none_iff (a b : Area) (ha : ValidRange TimeLt a.times) (hb : ValidRange TimeLt b.times) :
    intersectArea orderSubspace a b = none ↔ ¬ ∃ x, InArea a x ∧ InArea b x := by
  have hI := intersectRange_isInter 0 timeLt_strictTotal decides_time a.times b.times ha hb
  unfold intersectArea
  dsimp only
  have e := decides_subspace.bne_eq a.subspace b.subspace
  split
  · rename_i h
    simp only [Bool.and_eq_true, Bool.not_eq_true', e] at h
    simp only [true_iff]
    rintro ⟨x, ⟨h1, -⟩, ⟨h2, -⟩⟩
    simp [h.1.1] at h1; simp [h.1.2] at h2
    exact h.2 (h1.symm.trans h2)
  · rename_i h
    simp only [Bool.and_eq_true, Bool.not_eq_true', e] at h
    split
    · rename_i hp
      simp only [Bool.and_eq_true, Bool.not_eq_true', ← Bool.not_eq_true, isPathPrefixed_iff] at hp
      simp only [true_iff]
      rintro ⟨x, ⟨-, h1, -⟩, ⟨-, h2, -⟩⟩
      rcases List.prefix_or_prefix_of_prefix h1 h2 with h | h
      · exact hp.1 h
      · exact hp.2 h
    · rename_i hp
      simp only [Bool.and_eq_true, Bool.not_eq_true', ← Bool.not_eq_true, isPathPrefixed_iff] at hp
      split
      · rename_i ht
        rw [ht] at hI
        simp only [true_iff]
        rintro ⟨x, ⟨-, -, h1⟩, ⟨-, -, h2⟩⟩
        exact hI _ ⟨h1, h2⟩
      · rename_i t ht
        rw [ht] at hI
        have hst := (hI.2 _).1 (start_in timeLt_strictTotal hI.1)
        have hne : ∃ x, InArea a x ∧ InArea b x := by
          obtain ⟨q, hq1, hq2⟩ : ∃ q, a.path <+: q ∧ b.path <+: q := by
            by_cases h' : a.path <+: b.path
            · exact ⟨b.path, h', List.prefix_refl _⟩
            · refine ⟨a.path, List.prefix_refl _, ?_⟩
              by_cases h'' : b.path <+: a.path
              · exact h''
              · exact absurd ⟨h', h''⟩ hp
          refine ⟨⟨if a.anySubspace then b.subspace else a.subspace, q, t.start⟩, ⟨?_, hq1, hst.1⟩, ⟨?_, hq2, hst.2⟩⟩
          · cases a.anySubspace <;> simp
          · cases ha' : a.anySubspace <;> cases hb' : b.anySubspace <;> simp
            simp only [ha', hb', true_and] at h
            exact Classical.not_not.mp h
        split <;> simpa using hne

example : ValidRange TimeLt (⟨[7], false, [[1]], ⟨2, 9, false⟩⟩ : Area).times ∧
    intersectArea orderSubspace ⟨[7], false, [[1]], ⟨2, 9, false⟩⟩ ⟨[7], false, [[2]], ⟨2, 9, false⟩⟩ = none ∧
    intersectArea orderSubspace ⟨[7], false, [[1]], ⟨2, 9, false⟩⟩ ⟨[7], false, [[1], [2]], ⟨4, 0, true⟩⟩ ≠ none :=
  ⟨.inr (by show (2 : UInt64) < 9; decide), by decide, by decide⟩

/-- C10 is violated: the full area intersected with a subspace area is an area that does not
contain the positions of that subspace. -/
theorem C10_violated : ∃ a b r : Area, ∃ x : Position,
    intersectArea orderSubspace a b = some r ∧ InArea a x ∧ InArea b x ∧ ¬ InArea r x := by
  refine ⟨fullArea, subspaceArea [7], _, ⟨[7], [], 3⟩, rfl, ?_, ?_, ?_⟩
  all_goals (rw [← isIncludedArea_iff decides_subspace]; decide)

/-- C10 is violated: swapping the arguments changes the positions covered. -/
theorem C10_violated_swap : ∃ a b r r' : Area, ∃ x : Position,
    intersectArea orderSubspace a b = some r ∧ intersectArea orderSubspace b a = some r' ∧
    InArea r' x ∧ ¬ InArea r x := by
  refine ⟨fullArea, subspaceArea [7], _, _, ⟨[7], [], 3⟩, rfl, rfl, ?_, ?_⟩
  all_goals (rw [← isIncludedArea_iff decides_subspace]; decide)

/-- C10: what the result of an intersection contains, whichever areas were given: of the positions whose path and
time are in both areas, those in the subspace that the first area has in its field. -/
theorem C10_result (a b r : Area) (ha : ValidRange TimeLt a.times) (hb : ValidRange TimeLt b.times)
    (h : intersectArea orderSubspace a b = some r) (x : Position) :
    InArea r x ↔ x.subspace = a.subspace ∧ a.path <+: x.path ∧ b.path <+: x.path ∧ InRange TimeLt a.times x.time ∧
      InRange TimeLt b.times x.time := by
  have hI := intersectRange_isInter 0 timeLt_strictTotal decides_time a.times b.times ha hb
  unfold intersectArea at h
  dsimp only at h
  split at h
  · simp at h
  split at h
  · simp at h
  rename_i hp
  simp only [Bool.and_eq_true, Bool.not_eq_true', ← Bool.not_eq_true, isPathPrefixed_iff] at hp
  split at h
  · simp at h
  rename_i t ht
  rw [ht] at hI
  split at h
  · rename_i hpa
    rw [isPathPrefixed_iff] at hpa
    simp only [Option.some.injEq] at h
    subst h
    simp only [InArea, Bool.false_eq_true, false_or, hI.2]
    constructor
    · rintro ⟨h1, h2, h3, h4⟩
      exact ⟨h1, hpa.trans h2, h2, h3, h4⟩
    · rintro ⟨h1, -, h2, h3, h4⟩
      exact ⟨h1, h2, h3, h4⟩
  · rename_i hpa
    rw [isPathPrefixed_iff] at hpa
    simp only [Option.some.injEq] at h
    subst h
    have hpb : b.path <+: a.path := by
      by_cases h'' : b.path <+: a.path
      · exact h''
      · exact absurd ⟨hpa, h''⟩ hp
    simp only [InArea, Bool.false_eq_true, false_or, hI.2]
    constructor
    · rintro ⟨h1, h2, h3, h4⟩
      exact ⟨h1, h2, hpb.trans h2, h3, h4⟩
    · rintro ⟨h1, h2, -, h3, h4⟩
      exact ⟨h1, h2, h3, h4⟩

example : ValidRange TimeLt (⟨[7], false, [[1]], ⟨2, 9, false⟩⟩ : Area).times ∧ ValidRange TimeLt (⟨[7], false, [[1], [2]], ⟨4, 0, true⟩⟩ : Area).times ∧
    ∃ r, intersectArea orderSubspace ⟨[7], false, [[1]], ⟨2, 9, false⟩⟩ ⟨[7], false, [[1], [2]], ⟨4, 0, true⟩⟩ = some r ∧
      isIncludedArea orderSubspace r ⟨[7], [[1], [2]], 8⟩ = true :=
  ⟨.inr (by show (2 : UInt64) < 9; decide), .inl rfl, _, rfl, by decide⟩

/-- C10: the result of an intersection contains the positions in both areas exactly when the first area names a
subspace, or the second names the one that the first, covering any, has in its field. -/
theorem C10_exact (a b r : Area) (ha : ValidRange TimeLt a.times) (hb : ValidRange TimeLt b.times)
    (h : intersectArea orderSubspace a b = some r) :
    (∀ x, InArea r x ↔ InArea a x ∧ InArea b x) ↔
      a.anySubspace = false ∨ (b.anySubspace = false ∧ b.subspace = a.subspace) := by
  have hr := C10_result a b r ha hb h
  have hne : ∃ x, InArea a x ∧ InArea b x := by
    apply Classical.byContradiction
    intro hn
    rw [(C10_intersectArea_none_iff a b ha hb).2 hn] at h
    simp at h
  constructor
  · intro he
    cases haa : a.anySubspace with
    | false => exact .inl rfl
    | true =>
      right
      obtain ⟨x, ⟨-, h1, h2⟩, h3, h4, h5⟩ := hne
      cases hba : b.anySubspace with
      | true =>
        have := ((he ⟨a.subspace ++ [0], x.path, x.time⟩).2 ⟨⟨.inl haa, h1, h2⟩, .inl hba, h4, h5⟩)
        rw [hr] at this
        simp at this
      | false =>
        have := ((he ⟨b.subspace, x.path, x.time⟩).2 ⟨⟨.inl haa, h1, h2⟩, .inr rfl, h4, h5⟩)
        rw [hr] at this
        exact ⟨rfl, this.1⟩
  · intro hc x
    rw [hr]
    rcases hc with haa | ⟨hba, hs⟩
    · obtain ⟨y, ⟨ya, -⟩, yb, -⟩ := hne
      rw [haa] at ya
      simp only [Bool.false_eq_true, false_or] at ya
      constructor
      · rintro ⟨h1, h2, h3, h4, h5⟩
        refine ⟨⟨.inr h1, h2, h4⟩, ?_, h3, h5⟩
        rcases yb with yb | yb
        · exact .inl yb
        · exact .inr (by rw [h1, ← ya, yb])
      · rintro ⟨⟨h1, h2, h4⟩, -, h3, h5⟩
        rw [haa] at h1
        simp only [Bool.false_eq_true, false_or] at h1
        exact ⟨h1, h2, h3, h4, h5⟩
    · constructor
      · rintro ⟨h1, h2, h3, h4, h5⟩
        refine ⟨⟨.inr h1, h2, h4⟩, .inr (by rw [h1, hs]), h3, h5⟩
      · rintro ⟨⟨-, h2, h4⟩, h1, h3, h5⟩
        rw [hba] at h1
        simp only [Bool.false_eq_true, false_or] at h1
        exact ⟨by rw [h1, hs], h2, h3, h4, h5⟩

example : ∃ r, intersectArea orderSubspace ⟨[7], true, [[1]], ⟨2, 0, true⟩⟩ ⟨[7], false, [], ⟨1, 9, false⟩⟩ = some r ∧
    ∀ x, InArea r x ↔ InArea ⟨[7], true, [[1]], ⟨2, 0, true⟩⟩ x ∧ InArea ⟨[7], false, [], ⟨1, 9, false⟩⟩ x :=
  ⟨_, rfl, (C10_exact _ _ _ (.inl rfl) (.inr (by show (1 : UInt64).toNat < (9 : UInt64).toNat; decide)) rfl).2
    (.inr ⟨rfl, rfl⟩)⟩

/-- C10, partial: exact when the first area names a subspace. Missing: a first area covering
any subspace (see `C10_violated`). -/
theorem C10_intersectArea_some_partial (a b r : Area) (ha : ValidRange TimeLt a.times)
    (hb : ValidRange TimeLt b.times) (hany : a.anySubspace = false)
    (h : intersectArea orderSubspace a b = some r) (x : Position) :
    InArea r x ↔ InArea a x ∧ InArea b x := by
  have hI := intersectRange_isInter 0 timeLt_strictTotal decides_time a.times b.times ha hb
  unfold intersectArea at h
  dsimp only at h
  have e := decides_subspace.bne_eq a.subspace b.subspace
  split at h
  · simp at h
  · rename_i hs
    simp only [Bool.and_eq_true, Bool.not_eq_true', e, hany, true_and, not_and, Classical.not_not] at hs
    split at h
    · simp at h
    · rename_i hp
      simp only [Bool.and_eq_true, Bool.not_eq_true', ← Bool.not_eq_true, isPathPrefixed_iff] at hp
      split at h
      · simp at h
      · rename_i t ht
        rw [ht] at hI
        have hsub : (x.subspace = a.subspace) ↔ (x.subspace = a.subspace ∧ (b.anySubspace = true ∨ x.subspace = b.subspace)) := by
          constructor
          · intro hx
            refine ⟨hx, ?_⟩
            cases hb' : b.anySubspace with
            | true => simp
            | false => right; rw [hx]; exact hs hb'
          · exact And.left
        split at h
        · rename_i hpa
          rw [isPathPrefixed_iff] at hpa
          simp only [Option.some.injEq] at h
          subst h
          simp only [InArea, hany, Bool.false_eq_true, false_or, hI.2]
          constructor
          · rintro ⟨h1, h2, h3, h4⟩
            exact ⟨⟨h1, hpa.trans h2, h3⟩, (hsub.1 h1).2, h2, h4⟩
          · rintro ⟨⟨h1, -, h3⟩, -, h2, h4⟩
            exact ⟨h1, h2, h3, h4⟩
        · rename_i hpa
          rw [isPathPrefixed_iff] at hpa
          simp only [Option.some.injEq] at h
          subst h
          have hpb : b.path <+: a.path := by
            by_cases h'' : b.path <+: a.path
            · exact h''
            · exact absurd ⟨hpa, h''⟩ hp
          simp only [InArea, hany, Bool.false_eq_true, false_or, hI.2]
          constructor
          · rintro ⟨h1, h2, h3, h4⟩
            exact ⟨⟨h1, h2, h3⟩, (hsub.1 h1).2, hpb.trans h2, h4⟩
          · rintro ⟨⟨h1, h2, h3⟩, -, -, h4⟩
            exact ⟨h1, h2, h3, h4⟩

/-- Example areas with a proper intersection. -/
def exA1 : Area := ⟨[7], false, [[1]], ⟨0, 9, false⟩⟩
def exA2 : Area := ⟨[], true, [[1], [2]], ⟨5, 0, true⟩⟩

example : ValidRange TimeLt exA1.times ∧ ValidRange TimeLt exA2.times ∧ exA1.anySubspace = false ∧
    intersectArea orderSubspace exA1 exA2 = some ⟨[7], false, [[1], [2]], ⟨5, 9, false⟩⟩ := by
  rw [← isValidRange_iff decides_time, ← isValidRange_iff decides_time]
  decide

end Willow.Props
