import Verif.Lemmas.PropsReconciler
import Verif.Lemmas.PropsFullEnd
import Verif.Props.Reconcile

/-! C98: starting a reconciliation; and more of C83. -/

namespace Willow.Props

open Willow Spec

/-! ## C98 -/

/-- Everything of subspace 7 below a path, at most `count` entries. -/
def interestIn (path : Path) (count : UInt64) : AreaOfInterest := ⟨⟨[7], false, path, ⟨0, 0, true⟩⟩, count, 0⟩

/-- C98, partial: if the areas can be converted and have something in common, and no common entry
has a fingerprint, then Alfie's first message names a range that holds exactly the positions in
both areas, with Alfie's fingerprint of it (that of no bytes). Missing: areas with nothing in
common, areas at the limits, limits on count and size, entries with fingerprints (see the
violations). -/
theorem C98_alfie_partial (p : PathParams) (lib : KdLib) (fps : FpScheme) (kd : List KdKey) (ours theirs : AreaOfInterest)
    (ho : Convertible p ours.area) (ht : Convertible p theirs.area) (hx : ∃ x, InBoth p ours theirs x)
    (hk : ∀ k ∈ kd, ∀ c ∈ k.pos.path, c.length ≤ p.cl) (hf : ∀ k ∈ kd, InBoth p ours theirs k.pos → k.fingerprint = []) :
    ∃ r n, newReconciler appSubspaces p lib fps kd ours theirs .alfie = .ok [(r, fps.finalise [])] ∧
      summarise lib kd r = .ok ([], n) ∧
      ∀ x : Position, (∀ c ∈ x.path, c.length ≤ p.cl) → (InRange3d r x ↔ InArea ours.area x ∧ InArea theirs.area x) := by
  obtain ⟨r1, e1, v1, _, m1⟩ := convertible_range ho
  obtain ⟨r2, e2, v2, _, m2⟩ := convertible_range ht
  obtain ⟨x, hx⟩ := hx
  cases hi : intersectRange3d orderSubspace r1 r2 with
  | none =>
    exact absurd ⟨(m1 x hx.components).1 hx.first, (m2 x hx.components).1 hx.second⟩ (C05_intersectRange3d_none r1 r2 v1 v2 hi x)
  | some r =>
    have hr := (C05_intersectRange3d_some r1 r2 r v1 v2 hi).1
    have heq : ∀ x : Position, (∀ c ∈ x.path, c.length ≤ p.cl) → (InRange3d r x ↔ InArea ours.area x ∧ InArea theirs.area x) := by
      intro x hx
      rw [hr, m1 x hx, m2 x hx]
    obtain ⟨n, hn, _⟩ := summarise_ok lib kd r fun k hk' hr' =>
      hf k hk' ⟨hk k hk', ((heq _ (hk k hk')).1 hr').1, ((heq _ (hk k hk')).1 hr').2⟩
    refine ⟨r, n, ?_, hn, heq⟩
    simp only [newReconciler, determineRange, interestRange, appSubspaces, initiate, e1, e2, hi, hn, Res.ok_bind, if_true]

example : Convertible appParams (interestIn [] 0).area ∧ Convertible appParams (interestIn [[1, 2], [3]] 0).area ∧
    (∀ k ∈ at_ [(1, 5), (2, 6)], (∀ c ∈ k.pos.path, c.length ≤ appParams.cl) ∧ k.fingerprint = []) ∧
    newReconciler appSubspaces appParams listLib plainFps (at_ [(1, 5), (2, 6)]) (interestIn [] 0) (interestIn [[1, 2], [3]] 0) .alfie =
      .ok [(⟨⟨[7], [7, 0], false⟩, ⟨[[1, 2], [3]], [[1, 2], [3, 0]], false⟩, ⟨0, 0, true⟩⟩, [])] :=
  ⟨⟨⟨by decide, by decide, by decide⟩, .inr (by decide), .inl rfl⟩,
    ⟨⟨by decide, by decide, by decide⟩, .inl ⟨⟨by decide, by decide, by decide⟩, [[1, 2]], [3], [], rfl, by decide, by decide, by simp⟩,
      .inl rfl⟩, by decide, by decide +kernel⟩

/-- C98, partial: Betty sends nothing. -/
theorem C98_betty_partial (p : PathParams) (lib : KdLib) (fps : FpScheme) (kd : List KdKey) (ours theirs : AreaOfInterest)
    (ho : Convertible p ours.area) (ht : Convertible p theirs.area) :
    newReconciler appSubspaces p lib fps kd ours theirs .betty = .ok [] := by
  obtain ⟨r1, e1, _⟩ := convertible_range ho
  obtain ⟨r2, e2, _⟩ := convertible_range ht
  simp only [newReconciler, determineRange, interestRange, appSubspaces, e1, e2, Res.ok_bind]
  cases intersectRange3d orderSubspace r1 r2 <;> rfl

example : Convertible appParams (interestIn [] 0).area ∧ Convertible appParams (interestIn [[1, 2], [3]] 0).area ∧
    newReconciler appSubspaces appParams listLib plainFps (at_ [(1, 5), (2, 6)]) (interestIn [] 0) (interestIn [[1, 2], [3]] 0) .betty = .ok [] :=
  ⟨⟨⟨by decide, by decide, by decide⟩, .inr (by decide), .inl rfl⟩,
    ⟨⟨by decide, by decide, by decide⟩, .inl ⟨⟨by decide, by decide, by decide⟩, [[1, 2]], [3], [], rfl, by decide, by decide, by simp⟩,
      .inl rfl⟩, rfl⟩

/-- C98 is violated: if the areas have nothing in common, Alfie waits for ever. -/
theorem C98_violated_disjoint (p : PathParams) (lib : KdLib) (fps : FpScheme) (kd : List KdKey) (ours theirs : AreaOfInterest)
    (ho : Convertible p ours.area) (ht : Convertible p theirs.area) (hx : ¬ ∃ x, InBoth p ours theirs x) :
    newReconciler appSubspaces p lib fps kd ours theirs .alfie = .block := by
  obtain ⟨r1, e1, v1, s1, m1⟩ := convertible_range ho
  obtain ⟨r2, e2, v2, s2, m2⟩ := convertible_range ht
  cases hi : intersectRange3d orderSubspace r1 r2 with
  | none => simp only [newReconciler, determineRange, interestRange, appSubspaces, initiate, e1, e2, hi, Res.ok_bind]; rfl
  | some r =>
    exfalso
    have hr := intersectRange3d_some decides_subspace r1 r2 v1 v2 hi
    have hin : InRange3d r ⟨r.subspace.start, r.path.start, r.time.start⟩ :=
      ⟨start_in bytesLt_strictTotal hr.1.1, start_in pathLt_strictTotal hr.1.2.1, start_in timeLt_strictTotal hr.1.2.2⟩
    have hc : ∀ c ∈ r.path.start, c.length ≤ p.cl := by
      rcases intersectRange3d_start hi with h | h
      · rw [h, s1]; exact ho.valid.comp
      · rw [h, s2]; exact ht.valid.comp
    have := (hr.2 _).1 hin
    exact hx ⟨_, hc, (m1 _ hc).2 this.1, (m2 _ hc).2 this.2⟩

example : Convertible appParams (interestIn [[1]] 0).area ∧ Convertible appParams (interestIn [[2]] 0).area ∧
    newReconciler appSubspaces appParams listLib plainFps (at_ [(1, 5)]) (interestIn [[1]] 0) (interestIn [[2]] 0) .alfie = .block :=
  ⟨⟨⟨by decide, by decide, by decide⟩, .inl ⟨⟨by decide, by decide, by decide⟩, [], [1], [], rfl, by decide, by decide, by simp⟩, .inl rfl⟩,
    ⟨⟨by decide, by decide, by decide⟩, .inl ⟨⟨by decide, by decide, by decide⟩, [], [2], [], rfl, by decide, by decide, by simp⟩, .inl rfl⟩,
    by decide +kernel⟩

/-- C98 is violated: a common entry with a fingerprint (every entry after a restart) ends the
process. -/
theorem C98_violated_fingerprint (p : PathParams) (lib : KdLib) (fps : FpScheme) (kd : List KdKey) (ours theirs : AreaOfInterest)
    (ho : Convertible p ours.area) (ht : Convertible p theirs.area) (k : KdKey) (hk : k ∈ kd) (hx : InBoth p ours theirs k.pos)
    (hf : k.fingerprint ≠ []) : newReconciler appSubspaces p lib fps kd ours theirs .alfie = .crash := by
  obtain ⟨r1, e1, v1, _, m1⟩ := convertible_range ho
  obtain ⟨r2, e2, v2, _, m2⟩ := convertible_range ht
  cases hi : intersectRange3d orderSubspace r1 r2 with
  | none =>
    exact absurd ⟨(m1 _ hx.components).1 hx.first, (m2 _ hx.components).1 hx.second⟩ (C05_intersectRange3d_none r1 r2 v1 v2 hi _)
  | some r =>
    have hr := ((C05_intersectRange3d_some r1 r2 r v1 v2 hi).1 k.pos).2 ⟨(m1 _ hx.components).1 hx.first, (m2 _ hx.components).1 hx.second⟩
    have hc := C36_violated_crash lib kd r k hk hr hf
    simp only [newReconciler, determineRange, interestRange, appSubspaces, initiate, e1, e2, hi, hc, Res.ok_bind, if_true]
    rfl

example : Convertible appParams (interestIn [] 0).area ∧
    newReconciler appSubspaces appParams listLib plainFps [⟨⟨[7], [[1]], 5⟩, [9]⟩] (interestIn [] 0) (interestIn [] 0) .alfie = .crash :=
  ⟨⟨⟨by decide, by decide, by decide⟩, .inr (by decide), .inl rfl⟩, by decide +kernel⟩

/-- C98 is violated: an area of interest limited to one entry is started on with a range that holds
two. -/
theorem C98_violated_count : ∃ (kd : List KdKey) (aoi : AreaOfInterest) (r : Range3d) (fp : Bytes), aoi.maxCount = 1 ∧
    newReconciler appSubspaces appParams listLib plainFps kd aoi aoi .alfie = .ok [(r, fp)] ∧
    ∃ a ∈ kd, ∃ b ∈ kd, a.pos ≠ b.pos ∧ InRange3d r a.pos ∧ InRange3d r b.pos := by
  refine ⟨at_ [(1, 5), (2, 6)], interestIn [] 1, _, _, rfl, rfl, _, List.mem_cons_self, _, List.mem_cons_of_mem _ List.mem_cons_self, by decide, ?_, ?_⟩ <;>
  · rw [← isIncluded3d_iff decides_subspace]; decide

/-- C98 is violated: the limits of the areas of interest play no part, whatever the areas. -/
theorem C98_violated_limits (p : PathParams) (lib : KdLib) (fps : FpScheme) (kd : List KdKey) (ours theirs : AreaOfInterest)
    (role : SyncRole) (c s c' s' : UInt64) :
    newReconciler appSubspaces p lib fps kd { ours with maxCount := c, maxSize := s } { theirs with maxCount := c', maxSize := s' } role =
      newReconciler appSubspaces p lib fps kd ours theirs role := rfl

/-- C98 is violated by all areas whose path is as long as allowed and ends with a component that is not: in either role, the
process ends. -/
theorem C98_violated_room (p : PathParams) (hw : NoWrap p) (lib : KdLib) (fps : FpScheme) (kd : List KdKey) (ours theirs : AreaOfInterest)
    (role : SyncRole) (pre : Path) (last : Bytes) (hp : ours.area.path = pre ++ [last]) (hlast : last.length < p.cl)
    (htotal : pathBytes ours.area.path = p.pl) :
    newReconciler appSubspaces p lib fps kd ours theirs role = .crash := by
  have : interestRange appSubspaces p ours = .crash := by
    unfold interestRange areaTo3dRange
    rw [hp] at htotal ⊢
    rw [successorPrefix_noroom hw hlast htotal]
    rfl
  unfold newReconciler determineRange
  rw [this]
  rfl

example : NoWrap appParams ∧ (interestIn [List.replicate 25 1, List.replicate 25 1] 0).area.path = [List.replicate 25 1] ++ [List.replicate 25 1] ∧
    (List.replicate 25 (1 : UInt8)).length < appParams.cl ∧ pathBytes (interestIn [List.replicate 25 1, List.replicate 25 1] 0).area.path = appParams.pl :=
  ⟨⟨by decide, by decide⟩, rfl, by decide, by decide⟩

/-- C98 is violated by all areas whose path ends with a full component (but for components that are the largest possible):
no position is in the range that Alfie starts with, whatever the areas have in common. -/
theorem C98_violated_nothing (p : PathParams) (lib : KdLib) (fps : FpScheme) (kd : List KdKey) (ours theirs : AreaOfInterest)
    (h : FullEnd p ours.area.path ∨ FullEnd p theirs.area.path) (r : Range3d) (fp : Bytes)
    (hr : newReconciler appSubspaces p lib fps kd ours theirs .alfie = .ok [(r, fp)]) (x : Position) : ¬ InRange3d r x := by
  unfold newReconciler at hr
  rw [Res.bind_eq_ok] at hr
  obtain ⟨sent, hs, hr⟩ := hr
  rw [Res.bind_eq_ok] at hr
  obtain ⟨first, hi, hr⟩ := hr
  cases hr
  unfold determineRange at hs
  rw [Res.bind_eq_ok] at hs
  obtain ⟨r1, h1, hs⟩ := hs
  rw [Res.bind_eq_ok] at hs
  obtain ⟨r2, h2, hs⟩ := hs
  cases hx : intersectRange3d appSubspaces.order r1 r2 with
  | none =>
    rw [hx] at hs
    cases hs
    cases hi
  | some r' =>
    rw [hx] at hs
    cases hs
    unfold initiate at hi
    dsimp only at hi
    rw [if_pos rfl] at hi
    dsimp only at hi
    rw [Res.bind_eq_ok] at hi
    obtain ⟨sm, -, hi⟩ := hi
    cases hi
    intro hin
    obtain ⟨ha, hb⟩ := intersectRange3d_path hx x.path hin.2.1
    rcases h with h | h
    · obtain ⟨r1', e1, e2⟩ := fullEnd_area h appSubspaces.minimal appSubspaces.succ
      rw [show areaTo3dRange _ _ p ours.area = .ok r1 from h1] at e1
      cases e1
      exact e2 _ ha
    · obtain ⟨r2', e1, e2⟩ := fullEnd_area h appSubspaces.minimal appSubspaces.succ
      rw [show areaTo3dRange _ _ p theirs.area = .ok r2 from h2] at e1
      cases e1
      exact e2 _ hb

example : FullEnd tinyParams (interestIn [[1, 2, 3]] 0).area.path ∧
    ∃ r fp, newReconciler appSubspaces tinyParams listLib plainFps [] (interestIn [] 0) (interestIn [[1, 2, 3]] 0) .alfie = .ok [(r, fp)] :=
  ⟨⟨⟨by decide, by decide, by decide⟩, by decide, [], [1, 2, 3], [], rfl, by decide, by decide, by simp⟩, _, _, rfl⟩

/-- C98 is violated: for either role, an area whose path has the maximal total length ends the
process. -/
theorem C98_violated_crash (role : SyncRole) : ∃ (aoi : AreaOfInterest), ValidPath appParams aoi.area.path ∧
    newReconciler appSubspaces appParams listLib plainFps [] aoi aoi role = .crash :=
  ⟨interestIn [List.replicate 25 1, List.replicate 25 1] 0, ⟨by decide, by decide, by decide⟩, by cases role <;> decide⟩

/-- C98 is violated: an entry that is in both areas need not be in the range that Alfie starts with,
if the path of one area has a last component of the maximal length. -/
theorem C98_violated_missed : ∃ (p : PathParams) (ours theirs : AreaOfInterest) (k : KdKey) (r : Range3d) (fp : Bytes),
    ValidPath p ours.area.path ∧ ValidPath p theirs.area.path ∧ InBoth p ours theirs k.pos ∧
    newReconciler appSubspaces p listLib plainFps [k] ours theirs .alfie = .ok [(r, fp)] ∧ ¬ InRange3d r k.pos := by
  refine ⟨tinyParams, interestIn [] 0, interestIn [[1, 2, 3]] 0, ⟨⟨[7], [[1, 2, 3]], 5⟩, []⟩, _, _, ⟨by decide, by decide, by decide⟩,
    ⟨by decide, by decide, by decide⟩, ⟨by decide, ?_, ?_⟩, rfl, ?_⟩
  · rw [← isIncludedArea_iff decides_subspace]; decide
  · rw [← isIncludedArea_iff decides_subspace]; decide
  · rw [← isIncluded3d_iff decides_subspace]; decide

/-- Two areas, one in the other, as an example. -/
example : Convertible appParams (interestIn [] 0).area ∧ Convertible appParams (interestIn [[1, 2], [3]] 0).area ∧
    (∃ x, InBoth appParams (interestIn [] 0) (interestIn [[1, 2], [3]] 0) x) ∧
    newReconciler appSubspaces appParams listLib plainFps (at_ [(1, 5), (2, 6)]) (interestIn [] 0) (interestIn [[1, 2], [3]] 0) .alfie =
      .ok [(⟨⟨[7], [7, 0], false⟩, ⟨[[1, 2], [3]], [[1, 2], [3, 0]], false⟩, ⟨0, 0, true⟩⟩, [])] := by
  refine ⟨⟨⟨by decide, by decide, by decide⟩, .inr (by decide), .inl rfl⟩,
    ⟨⟨by decide, by decide, by decide⟩, .inl ⟨⟨by decide, by decide, by decide⟩, [[1, 2]], [3], [], rfl, by decide, by decide, by simp⟩,
      .inl rfl⟩, ⟨⟨[7], [[1, 2], [3], [4]], 5⟩, by decide, ?_, ?_⟩, by decide⟩
  · rw [← isIncludedArea_iff decides_subspace]; decide
  · rw [← isIncludedArea_iff decides_subspace]; decide

/-- Two areas with nothing in common. -/
example : Convertible appParams (interestIn [[1]] 0).area ∧ Convertible appParams (interestIn [[2]] 0).area ∧
    ¬ ∃ x, InBoth appParams (interestIn [[1]] 0) (interestIn [[2]] 0) x := by
  have hc : ∀ b : UInt8, Comfortable appParams [[b]] := fun b =>
    ⟨⟨by simp [appParams], by simp [appParams], by simp [appParams, pathBytes]⟩, [], [b], [], rfl, by simp [appParams],
      by simp [appParams, pathBytes], by simp⟩
  refine ⟨⟨(hc 1).valid, .inl (hc 1), .inl rfl⟩, ⟨(hc 2).valid, .inl (hc 2), .inl rfl⟩, ?_⟩
  rintro ⟨x, _, h1, h2⟩
  obtain ⟨t, ht⟩ := h1.2.1
  obtain ⟨u, hu⟩ := h2.2.1
  change [[1]] ++ t = x.path at ht
  change [[2]] ++ u = x.path at hu
  rw [← hu] at ht
  cases ht

/-- A common entry with a fingerprint. -/
example : InBoth appParams (interestIn [] 0) (interestIn [[1]] 0) ⟨[7], [[1], [2]], 5⟩ := by
  refine ⟨by decide, ?_, ?_⟩ <;>
  · rw [← isIncludedArea_iff decides_subspace]; decide

/-! ## C83 -/

/-- C83 is violated from the start: whatever the two stores hold and whatever the areas are, the
first message of Alfie is never answered by Betty. -/
theorem C83_violated_start (sub : SubspaceOps) (p : PathParams) (lib lib' : KdLib) (fps : FpScheme)
    (hrefl : ∀ x, fps.isEqual x x = true) (mine yours : List KdKey) (ours theirs : AreaOfInterest) (r : Range3d) (fp : Bytes)
    (h : newReconciler sub p lib fps yours ours theirs .alfie = .ok [(r, fp)]) (c : Nat) (answer : Response)
    (ha : respond lib' fps mine r fp c = .ok answer) : answer = .nothing := by
  simp only [newReconciler] at h
  cases hd : determineRange sub p ours theirs .alfie with
  | ok sent =>
    rw [hd] at h
    cases sent with
    | none => cases h
    | some r' =>
      simp only [initiate, Res.ok_bind] at h
      cases hs : summarise lib yours r' with
      | ok x =>
        rw [hs] at h
        simp only [Res.ok_bind] at h
        cases h
        exact C83_violated lib' lib fps hrefl mine yours r c x.1 x.2 hs answer ha
      | err => rw [hs] at h; cases h
      | crash => rw [hs] at h; cases h
      | block => rw [hs] at h; cases h
  | err => rw [hd] at h; cases h
  | crash => rw [hd] at h; cases h
  | block => rw [hd] at h; cases h

example : newReconciler appSubspaces appParams listLib plainFps (at_ [(1, 5), (2, 6)]) (interestIn [] 0) (interestIn [] 0) .alfie =
      .ok [(⟨⟨[7], [7, 0], false⟩, ⟨[], [], true⟩, ⟨0, 0, true⟩⟩, [])] ∧
    respond listLib plainFps [] ⟨⟨[7], [7, 0], false⟩, ⟨[], [], true⟩, ⟨0, 0, true⟩⟩ [] 0 = .ok .nothing := ⟨by decide, rfl⟩

end Willow.Props
