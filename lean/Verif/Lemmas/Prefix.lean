import Verif.Lemmas.Kv

/-! Lemmas about the queries of the store: point lookups, entries above and below a path. -/

namespace Willow

open Spec

theorem KdLib.mem_query (lib : KdLib) (kd : List KdKey) (r : Range3d) (k : KdKey) :
    k ∈ lib.query kd r ↔ k ∈ kd ∧ InRange3d r k.pos := by
  rw [(lib.perm kd r).mem_iff, List.mem_filter, isIncluded3d_iff decides_subspace]

theorem query_perm_of (lib : KdLib) (kd : List KdKey) (r : Range3d) (P : KdKey → Bool)
    (h : ∀ k ∈ kd, InRange3d r k.pos ↔ P k = true) : (lib.query kd r).Perm (kd.filter P) := by
  refine (lib.perm kd r).trans ?_
  have : kd.filter (fun k => isIncluded3d orderSubspace r k.pos) = kd.filter P := by
    apply List.filter_congr
    intro k hk
    have := h k hk
    rw [← isIncluded3d_iff decides_subspace] at this
    exact Bool.eq_iff_iff.2 this
  rw [this]

theorem filter_or_perm {α : Type} (P Q R : α → Bool) : ∀ (l : List α), (∀ x ∈ l, R x = (P x || Q x)) →
    (∀ x ∈ l, ¬ (P x = true ∧ Q x = true)) → (l.filter R).Perm (l.filter P ++ l.filter Q)
  | [], _, _ => by simp
  | x :: xs, h1, h2 => by
    have ih := filter_or_perm P Q R xs (fun y hy => h1 y (List.mem_cons_of_mem _ hy))
      (fun y hy => h2 y (List.mem_cons_of_mem _ hy))
    have hx1 := h1 x List.mem_cons_self
    have hx2 := h2 x List.mem_cons_self
    simp only [List.filter_cons]
    cases hP : P x <;> cases hQ : Q x <;> simp_all
    exact (ih.cons x).trans (List.perm_middle.symm)

/-- The proper non-empty prefixes of a path, as computed by `DriverPrefixesOf`. -/
theorem properPrefixes (path : Path) (hne : path ≠ []) :
    ∃ ps : List Path, slice (prefixesOf path) 1 ((prefixesOf path).length - 1) = .ok ps ∧ ps.Nodup ∧
      ∀ q, q ∈ ps ↔ q <+: path ∧ q ≠ [] ∧ q ≠ path := by
  have hpos : 0 < path.length := List.length_pos_iff.2 hne
  have hlen : (prefixesOf path).length = path.length + 1 := by simp [prefixesOf]
  refine ⟨(List.range (path.length - 1)).map fun i => path.take (i + 1), ?_, ?_, ?_⟩
  · unfold slice
    rw [if_pos (by omega), hlen]
    simp only [prefixesOf, List.drop_succ_cons, List.drop_zero, Res.ok.injEq]
    rw [← List.map_take, List.take_range]
    congr 2
    omega
  · rw [List.nodup_iff_pairwise_ne, List.pairwise_map]
    refine List.Pairwise.imp_of_mem ?_ (List.pairwise_lt_range (n := path.length - 1))
    intro a b ha hb hab heq
    rw [List.mem_range] at ha hb
    have := congrArg List.length heq
    simp at this
    omega
  · intro q
    simp only [List.mem_map, List.mem_range]
    constructor
    · rintro ⟨i, hi, rfl⟩
      refine ⟨List.take_prefix _ _, ?_, ?_⟩
      · intro h; have := congrArg List.length h; simp at this; exact hne this
      · intro h; have := congrArg List.length h; simp at this; omega
    · rintro ⟨h1, h2, h3⟩
      have hl := h1.length_le
      have hq : 0 < q.length := List.length_pos_iff.2 h2
      have hlt : q.length ≠ path.length := fun h => h3 (h1.eq_of_length h)
      refine ⟨q.length - 1, by omega, ?_⟩
      have : q.length - 1 + 1 = q.length := by omega
      rw [this]
      exact (List.prefix_iff_eq_take.1 h1).symm

theorem pathBytes_prefix {a b : Path} (h : a <+: b) : pathBytes a ≤ pathBytes b := by
  obtain ⟨t, rfl⟩ := h
  rw [pathBytes_append]; omega

theorem validPath_prefix {p : PathParams} {a b : Path} (h : a <+: b) (hv : ValidPath p b) : ValidPath p a :=
  ⟨Nat.le_trans h.length_le hv.count, fun c hc => hv.comp c (h.subset hc),
    Nat.le_trans (pathBytes_prefix h) hv.total⟩

theorem driverPrefixesLoop_ok (lib : KdLib) (p : PathParams) (kd : List KdKey) (s : Bytes) :
    ∀ ps : List Path, ps.Nodup → (∀ q ∈ ps, ValidPath p q ∧ q.length < p.cc) →
    ∃ ks, driverPrefixesLoop lib p kd s ps = .ok ks ∧
      ks.Perm (kd.filter fun k => decide (k.pos.subspace = s ∧ k.pos.path ∈ ps))
  | [], _, _ => ⟨[], rfl, by simp⟩
  | q :: qs, hn, hv => by
    obtain ⟨hq, hn'⟩ := List.nodup_cons.1 hn
    obtain ⟨ks, h1, h2⟩ := driverPrefixesLoop_ok lib p kd s qs hn' fun x hx => hv x (List.mem_cons_of_mem _ hx)
    obtain ⟨hv1, hv2⟩ := hv q List.mem_cons_self
    obtain ⟨r, h3, h4⟩ := pointRange_short hv1 hv2 s
    refine ⟨lib.query kd r ++ ks, by simp [driverPrefixesLoop, h1, h3], ?_⟩
    have h5 := query_perm_of lib kd r (fun k => decide (k.pos.subspace = s ∧ k.pos.path = q))
      (fun k _ => by rw [h4]; simp)
    refine (h5.append h2).trans (filter_or_perm _ _ _ kd ?_ ?_).symm
    · intro x _
      simp only [List.mem_cons, Bool.decide_and, Bool.decide_or]
      cases decide (x.pos.subspace = s) <;> simp
    · intro x _ ⟨ha, hb⟩
      simp at ha hb
      exact hq (ha.2 ▸ hb.2)

theorem driverPrefixesOf_ok (lib : KdLib) (p : PathParams) (kd : List KdKey) (s : Bytes) (path : Path)
    (hv : ValidPath p path) (hne : path ≠ []) :
    ∃ ks, driverPrefixesOf lib p kd s path = .ok ks ∧
      ks.Perm (kd.filter fun k => decide (k.pos.subspace = s ∧ k.pos.path <+: path ∧ k.pos.path ≠ [] ∧ k.pos.path ≠ path)) := by
  obtain ⟨ps, h1, h2, h3⟩ := properPrefixes path hne
  obtain ⟨ks, h4, h5⟩ := driverPrefixesLoop_ok lib p kd s ps h2 (fun q hq => by
    obtain ⟨ha, hb, hc⟩ := (h3 q).1 hq
    refine ⟨validPath_prefix ha hv, ?_⟩
    have := ha.length_le
    have : q.length ≠ path.length := fun h => hc (ha.eq_of_length h)
    have := hv.count
    omega)
  refine ⟨ks, by unfold driverPrefixesOf; dsimp only; rw [h1]; exact h4, ?_⟩
  have : (fun k : KdKey => decide (k.pos.subspace = s ∧ k.pos.path ∈ ps)) =
      fun k => decide (k.pos.subspace = s ∧ k.pos.path <+: path ∧ k.pos.path ≠ [] ∧ k.pos.path ≠ path) := by
    funext k
    exact decide_eq_decide.2 (by rw [h3])
  rw [this] at h5
  exact h5

theorem prefixedBy_ok (lib : KdLib) (p : PathParams) (kd : List KdKey) (s : Bytes) (path : Path)
    (hc : Comfortable p path) (hkd : ∀ k ∈ kd, ValidPath p k.pos.path) :
    ∃ ks, prefixedBy lib p kd s path = .ok ks ∧
      ks.Perm (kd.filter fun k => decide (k.pos.subspace = s ∧ path <+: k.pos.path ∧ k.pos.path ≠ path)) := by
  obtain ⟨r, h1, h2⟩ := belowRange_comfortable hc s
  refine ⟨lib.query kd r, by unfold prefixedBy; rw [h1]; rfl, query_perm_of lib kd r _ fun k hk => ?_⟩
  rw [h2 _ (hkd k hk)]; simp

/-- A point lookup when the tree holds at most one key per subspace and path. -/
theorem storageGet_ok (lib : KdLib) (p : PathParams) (kd : List KdKey) (s : Bytes) (path : Path)
    (hv : ValidPath p path) (hl : path.length < p.cc ∨ (Comfortable p path ∧ ∀ k ∈ kd, ValidPath p k.pos.path) ∨ path = [])
    (hu : (kd.filter fun k => decide (k.pos.subspace = s ∧ k.pos.path = path)).length ≤ 1) :
    ∃ o, storageGet lib p kd s path = .ok o ∧
      ∀ pos, o = some pos ↔ (pos.subspace = s ∧ pos.path = path ∧ ∃ k ∈ kd, k.pos = pos) := by
  obtain ⟨r, h1, h2⟩ : ∃ r, pointRange p s path = .ok r ∧
      ∀ k ∈ kd, (InRange3d r k.pos ↔ k.pos.subspace = s ∧ k.pos.path = path) := by
    rcases hl with hl | ⟨hl, hkd⟩ | rfl
    · obtain ⟨r, h1, h2⟩ := pointRange_short hv hl s
      exact ⟨r, h1, fun k _ => h2 k.pos⟩
    · obtain ⟨r, h1, h2⟩ := pointRange_ok hv (.inr hl) s
      exact ⟨r, h1, fun k hk => h2 k.pos (hkd k hk)⟩
    · refine ⟨_, rfl, fun k _ => ?_⟩
      unfold InRange3d
      have := pathPoint_iff [] k.pos.path
      simp only [List.nil_append] at this
      simp only [Option.getD_some, subspaceRange_iff, this, anyTime_iff, and_true]
  have hp := query_perm_of lib kd r (fun k => decide (k.pos.subspace = s ∧ k.pos.path = path))
    (fun k hk => by rw [h2 k hk]; simp)
  unfold storageGet
  rw [h1]
  simp only [Res.ok_bind]
  have hmem : ∀ k, k ∈ lib.query kd r ↔ k ∈ kd ∧ k.pos.subspace = s ∧ k.pos.path = path := by
    intro k; rw [hp.mem_iff]; simp
  have hlen : (lib.query kd r).length ≤ 1 := by rw [hp.length_eq]; exact hu
  match hq : lib.query kd r, hlen with
  | [], _ =>
    refine ⟨none, rfl, fun pos => ⟨by simp, ?_⟩⟩
    rintro ⟨ha, hb, k, hk, rfl⟩
    have := (hmem k).2 ⟨hk, ha, hb⟩
    rw [hq] at this
    simp at this
  | [k], _ =>
    refine ⟨some k.pos, rfl, fun pos => ⟨?_, ?_⟩⟩
    · rintro ⟨⟩
      have := (hmem k).1 (by rw [hq]; simp)
      exact ⟨this.2.1, this.2.2, k, this.1, rfl⟩
    · rintro ⟨ha, hb, k', hk, rfl⟩
      have := (hmem k').2 ⟨hk, ha, hb⟩
      rw [hq] at this
      simp at this
      rw [this]
  | _ :: _ :: _, h => simp at h

/-- Several keys with the subspace and path. -/
theorem storageGet_several (lib : KdLib) (p : PathParams) (kd : List KdKey) (s : Bytes) (path : Path)
    (hv : ValidPath p path) (hl : path.length < p.cc ∨ (Comfortable p path ∧ ∀ k ∈ kd, ValidPath p k.pos.path) ∨ path = [])
    (hu : 2 ≤ (kd.filter fun k => decide (k.pos.subspace = s ∧ k.pos.path = path)).length) :
    storageGet lib p kd s path = .crash := by
  obtain ⟨r, h1, h2⟩ : ∃ r, pointRange p s path = .ok r ∧
      ∀ k ∈ kd, (InRange3d r k.pos ↔ k.pos.subspace = s ∧ k.pos.path = path) := by
    rcases hl with hl | ⟨hl, hkd⟩ | rfl
    · obtain ⟨r, h1, h2⟩ := pointRange_short hv hl s
      exact ⟨r, h1, fun k _ => h2 k.pos⟩
    · obtain ⟨r, h1, h2⟩ := pointRange_ok hv (.inr hl) s
      exact ⟨r, h1, fun k hk => h2 k.pos (hkd k hk)⟩
    · refine ⟨_, rfl, fun k _ => ?_⟩
      unfold InRange3d
      have := pathPoint_iff [] k.pos.path
      simp only [List.nil_append] at this
      simp only [Option.getD_some, subspaceRange_iff, this, anyTime_iff, and_true]
  have hp := query_perm_of lib kd r (fun k => decide (k.pos.subspace = s ∧ k.pos.path = path))
    (fun k hk => by rw [h2 k hk]; simp)
  unfold storageGet
  rw [h1]
  simp only [Res.ok_bind]
  have hlen : 2 ≤ (lib.query kd r).length := by rw [hp.length_eq]; exact hu
  match lib.query kd r, hlen with
  | _ :: _ :: _, _ => rfl

end Willow
