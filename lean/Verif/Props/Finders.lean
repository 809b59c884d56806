import Verif.Lemmas.PropsFinders
import Verif.Lemmas.Queue
import Verif.Props.OrdersRanges

/-! C62 (reconcilers), C63 (intersecting interests) and C64 (capabilities). -/

namespace Willow.Props

open Willow Spec

/-! ## C62 -/

variable {ρ : Type}

/-- Registrations one after the other, from an empty map. -/
def register (regs : List (UInt64 × UInt64 × ρ)) : ReconcilerMap ρ :=
  regs.foldl (fun m x => m.add x.1 x.2.1 x.2.2) []

/-- C62, partial, exact: a lookup finds the last reconciler registered with our handle, and only
under the handle of theirs that it was registered with. Missing: the reconcilers registered with
our handle before (see `C62_violated`). -/
theorem C62_last_partial (regs : List (UInt64 × UInt64 × ρ)) (o t : UInt64) (r : ρ) :
    (register regs).find o t = some r ↔ lastRegistered o regs = some (t, r) := by
  unfold register
  rw [find_foldl]
  cases h : lastRegistered o regs with
  | none => simp [ReconcilerMap.find, GoMap.get]
  | some x =>
    obtain ⟨t', r'⟩ := x
    by_cases ht : t = t'
    · simp [ht]
    · simp [ht, Ne.symm ht]

example : (register [(1, 2, 10), (3, 4, 20), (1, 5, 30)]).find 1 5 = some 30 ∧
    lastRegistered 1 [((1 : UInt64), (2 : UInt64), 10), (3, 4, 20), (1, 5, 30)] = some (5, 30) := by decide

/-- C62, partial: a registered reconciler is found as long as our handle is not registered
again. -/
theorem C62_kept_partial (before later : List (UInt64 × UInt64 × ρ)) (o t : UInt64) (r : ρ) (h : ∀ x ∈ later, x.1 ≠ o) :
    (register (before ++ (o, t, r) :: later)).find o t = some r := by
  rw [C62_last_partial]
  have h0 : lastRegistered o later = none := by
    induction later with
    | nil => rfl
    | cons x later ih =>
      simp only [lastRegistered, ih fun y hy => h y (List.mem_cons_of_mem _ hy)]
      rw [if_neg (h x List.mem_cons_self)]
  induction before with
  | nil => simp [lastRegistered, h0]
  | cons x before ih => simp only [List.cons_append, lastRegistered, ih]

example : (register [(1, 2, 10), (3, 4, 20), (5, 2, 30)]).find 3 4 = some 20 :=
  C62_kept_partial [(1, 2, 10)] [(5, 2, 30)] 3 4 20 (by decide)

/-- C62 is violated: registering another pair with the same handle of ours removes the first. -/
theorem C62_violated (r r' : ρ) : (register [(1, 1, r), (1, 2, r')]).find 1 1 = none := rfl

example : (register [(1, 1, 10), (1, 2, 20)]).find 1 2 = some 20 := by decide

/-! ## C63 -/

/-- C63, partial: for handles that are bound to areas with valid time ranges, each added once per
side, the reported pairs are exactly those of the same namespace whose areas have a position in
common, each reported once; for every order of the additions and every order in which Go visits
the maps. Missing: empty time ranges (see `C63_violated`) and handles that are not bound (see `C63_violated_unbound`). -/
theorem C63_pairs_partial (env : FinderEnv) (hns : ∀ a b, env.nsEqual a b = true ↔ a = b) (adds : List (UInt64 × Bytes × Bool))
    (hres : Resolves env adds) (hd : (adds.map fun a => (a.1, a.2.2)).Nodup) :
    (∀ n o t, (n, o, t) ∈ (AoiFinder.run env adds).queue ↔
      (o, n, true) ∈ adds ∧ (t, n, false) ∈ adds ∧
      ∃ a b, env.handlesOurs o = some a ∧ env.handlesTheirs t = some b ∧ ∃ x, InArea a.area x ∧ InArea b.area x) ∧
    (AoiFinder.run env adds).queue.Nodup :=
  ⟨(run_found env hns adds hres hd).queue, (run_found env hns adds hres hd).once⟩

/-- A finder for examples: our handles 0 and 1 are subspaces 7 and 8, theirs 0 is everything below
the path `[1]`, theirs 1 is an empty time range. -/
def exampleFinder : FinderEnv :=
  { nsEqual := fun a b => decide (a = b)
    handlesOurs := fun h => if h = 0 then some ⟨⟨[7], false, [], ⟨0, 0, true⟩⟩, 0, 0⟩
      else if h = 1 then some ⟨⟨[8], false, [[2]], ⟨0, 9, false⟩⟩, 0, 0⟩ else none
    handlesTheirs := fun h => if h = 0 then some ⟨⟨[], true, [[1]], ⟨3, 0, true⟩⟩, 0, 0⟩
      else if h = 1 then some ⟨⟨[], true, [], ⟨5, 5, false⟩⟩, 0, 0⟩ else none
    visit := id
    perm := fun _ => .refl _ }

example : (AoiFinder.run exampleFinder [(0, [42], true), (0, [42], false), (1, [42], true)]).queue = [([42], 0, 0)] ∧
    Resolves exampleFinder [(0, [42], true), (0, [42], false), (1, [42], true)] ∧
    (([(0, [42], true), (0, [42], false), (1, [42], true)] : List (UInt64 × Bytes × Bool)).map fun a => (a.1, a.2.2)).Nodup := by
  refine ⟨by decide +kernel, ⟨?_, ?_⟩, by decide⟩
  · intro h n hm
    simp only [List.mem_cons, Prod.mk.injEq, Bool.true_eq_false, and_false, false_or, and_true, List.not_mem_nil, or_false] at hm
    rcases hm with ⟨rfl, -⟩ | ⟨rfl, -⟩
    · exact ⟨_, rfl, .inl rfl⟩
    · exact ⟨_, rfl, .inr (show (0 : UInt64).toNat < (9 : UInt64).toNat by decide)⟩
  · intro h n hm
    simp only [List.mem_cons, Prod.mk.injEq, Bool.false_eq_true, and_false, false_or, and_true, List.not_mem_nil, or_false] at hm
    obtain ⟨rfl, -⟩ := hm
    exact ⟨_, rfl, .inl rfl⟩

/-- C63 is violated: a pair is reported although one area contains no position at all. -/
theorem C63_violated : ∃ env adds b, (AoiFinder.run env adds).queue = [([42], 0, 1)] ∧ env.handlesTheirs 1 = some b ∧
    ¬ ∃ x, InArea b.area x := by
  refine ⟨exampleFinder, [(0, [42], true), (1, [42], false)], _, by decide +kernel, rfl, ?_⟩
  rintro ⟨x, -, -, h1, h2 | h2⟩
  · cases h2
  · exact h1 h2

/-- C63 is violated by every area of theirs with an empty time range, in which there is no position: the pair
with an area of ours is reported exactly if subspaces and paths meet and our times contain the start of theirs. -/
theorem C63_violated_empty (env : FinderEnv) (hns : ∀ a b, env.nsEqual a b = true ↔ a = b) (o t : UInt64) (n : Bytes)
    (a b : AreaOfInterest) (ho : env.handlesOurs o = some a) (ht : env.handlesTheirs t = some b)
    (hopen : b.area.times.openEnd = false) (hempty : b.area.times.stop ≤ b.area.times.start) :
    (¬ ∃ x, InArea b.area x) ∧
    ((n, o, t) ∈ (AoiFinder.run env [(o, n, true), (t, n, false)]).queue ↔
      (a.area.anySubspace = true ∨ b.area.anySubspace = true ∨ a.area.subspace = b.area.subspace) ∧
      (a.area.path <+: b.area.path ∨ b.area.path <+: a.area.path) ∧
      InRange TimeLt a.area.times b.area.times.start) := by
  have hv : env.visit [(o, n)] = [(o, n)] := List.perm_singleton.1 (env.perm _)
  have hv0 : env.visit [] = [] := List.perm_nil.1 (env.perm _)
  refine ⟨?_, ?_⟩
  · rintro ⟨x, -, -, h1, h2 | h2⟩
    · rw [hopen] at h2
      cases h2
    · simp only [TimeLt, UInt64.le_iff_toNat_le, UInt64.lt_iff_toNat_lt] at h1 h2 hempty
      omega
  have hs : orderSubspace b.area.subspace a.area.subspace = .eq ↔ a.area.subspace = b.area.subspace := by
    rw [decides_subspace.eq_iff]
    exact eq_comm
  have hr : (intersectRange 0 orderTimestamp b.area.times a.area.times).isSome ↔
      InRange TimeLt a.area.times b.area.times.start := by
    obtain ⟨⟨s, any, path, ⟨st, en, op⟩⟩, x, y⟩ := a
    obtain ⟨⟨s', any', path', ⟨st', en', op'⟩⟩, x', y'⟩ := b
    simp only at hopen hempty ⊢
    subst hopen
    have ord : ∀ u v : UInt64, (orderTimestamp u v = .lt ∧ u.toNat < v.toNat) ∨ (orderTimestamp u v = .gt ∧ v.toNat < u.toNat) ∨
        (orderTimestamp u v = .eq ∧ u.toNat = v.toNat) := by
      intro u v
      simp only [orderTimestamp, gt_iff_lt, UInt64.lt_iff_toNat_lt]
      split
      · exact .inl ⟨rfl, by assumption⟩
      · split
        · exact .inr (.inl ⟨rfl, by assumption⟩)
        · exact .inr (.inr ⟨rfl, by omega⟩)
    simp only [InRange, TimeLt, UInt64.le_iff_toNat_le, UInt64.lt_iff_toNat_lt] at hempty ⊢
    cases op
    · simp only [intersectRange, orderRangePair, Bool.not_false, Bool.and_self, Bool.true_or, if_true, Bool.false_eq_true, if_false,
        Bool.false_and, false_or]
      rcases ord st' st with ⟨h, h'⟩ | ⟨h, h'⟩ | ⟨h, h'⟩ <;> rcases ord en' st with ⟨g, g'⟩ | ⟨g, g'⟩ | ⟨g, g'⟩ <;>
        rcases ord en st' with ⟨k, k'⟩ | ⟨k, k'⟩ | ⟨k, k'⟩ <;> simp [h, g, k] <;> omega
    · simp only [intersectRange, orderRangePair, Bool.not_false, Bool.not_true, Bool.and_self, Bool.or_self, if_true,
        Bool.false_eq_true, if_false, Bool.and_false, Bool.and_true]
      rcases ord st st' with ⟨h, h'⟩ | ⟨h, h'⟩ | ⟨h, h'⟩ <;> rcases ord st en' with ⟨g, g'⟩ | ⟨g, g'⟩ | ⟨g, g'⟩ <;>
        simp [h, g] <;> omega
  have hi : (intersectArea orderSubspace b.area a.area).isSome ↔
      (a.area.anySubspace = true ∨ b.area.anySubspace = true ∨ a.area.subspace = b.area.subspace) ∧
      (a.area.path <+: b.area.path ∨ b.area.path <+: a.area.path) ∧
      (intersectRange 0 orderTimestamp b.area.times a.area.times).isSome := by
    rw [← isPathPrefixed_iff, ← isPathPrefixed_iff, ← hs]
    unfold intersectArea
    cases a.area.anySubspace <;> cases b.area.anySubspace <;>
      cases hc : intersectRange 0 orderTimestamp b.area.times a.area.times <;>
      cases isPathPrefixed a.area.path b.area.path <;> cases isPathPrefixed b.area.path a.area.path <;>
      cases orderSubspace b.area.subspace a.area.subspace <;> simp
  have hq : (AoiFinder.run env [(o, n, true), (t, n, false)]).queue =
      if (intersectArea orderSubspace b.area a.area).isSome then [(n, o, t)] else [] := by
    simp only [AoiFinder.run, List.foldl_cons, List.foldl_nil, AoiFinder.add, if_true, Bool.false_eq_true, if_false, hv0, addAoiLoop,
      List.append_nil, GoMap.set, List.filter_nil, hv, (hns n n).2 rfl, Bool.not_true, ho, ht, Option.getD_some]
    cases intersectArea orderSubspace b.area a.area <;> simp
  rw [hq, ← hr, ← hi]
  split <;> simp_all

example : exampleFinder.handlesOurs 0 = some ⟨⟨[7], false, [], ⟨0, 0, true⟩⟩, 0, 0⟩ ∧
    exampleFinder.handlesTheirs 1 = some ⟨⟨[], true, [], ⟨5, 5, false⟩⟩, 0, 0⟩ := by decide +kernel

/-- C63 is violated: a handle of theirs that is not bound is taken for the zero area. With a handle of
ours whose area has no end, the pair is reported exactly if that area begins at time zero and is for
any subspace or for the one with the empty name. -/
theorem C63_violated_unbound (env : FinderEnv) (hns : ∀ a b, env.nsEqual a b = true ↔ a = b) (o t : UInt64) (n : Bytes)
    (a : AreaOfInterest) (ho : env.handlesOurs o = some a) (ht : env.handlesTheirs t = none) (hopen : a.area.times.openEnd = true) :
    (n, o, t) ∈ (AoiFinder.run env [(o, n, true), (t, n, false)]).queue ↔
      a.area.times.start = 0 ∧ (a.area.anySubspace = true ∨ a.area.subspace = []) := by
  have hv : env.visit [(o, n)] = [(o, n)] := List.perm_singleton.1 (env.perm _)
  have hv0 : env.visit [] = [] := List.perm_nil.1 (env.perm _)
  have hs : orderSubspace [] a.area.subspace = .eq ↔ a.area.subspace = [] := by
    rw [decides_subspace.eq_iff]
    exact eq_comm
  have hi : (intersectArea orderSubspace zeroAoi.area a.area).isSome ↔
      a.area.times.start = 0 ∧ (a.area.anySubspace = true ∨ a.area.subspace = []) := by
    obtain ⟨⟨s, any, path, ⟨st, en, op⟩⟩, x, y⟩ := a
    simp only at hopen hs ⊢
    subst hopen
    have hp : isPathPrefixed [] path = true := (isPathPrefixed_iff _ _).2 List.nil_prefix
    have ht : (intersectRange 0 orderTimestamp ⟨0, 0, false⟩ ⟨st, en, true⟩).isSome ↔ st = 0 := by
      have hn : ¬ st < 0 := by simp
      have hz : st > 0 ↔ st ≠ 0 := by
        rw [gt_iff_lt, UInt64.lt_iff_toNat_lt, ne_eq, ← UInt64.toNat_inj]
        simp
        omega
      by_cases h : st = 0 <;> simp [intersectRange, orderRangePair, orderTimestamp, h, hn, hz]
    simp only [intersectArea, zeroAoi, hp]
    cases any <;> cases hc : intersectRange 0 orderTimestamp ⟨0, 0, false⟩ ⟨st, en, true⟩ <;> rw [hc] at ht <;>
      simp_all <;> split <;> simp_all
  have hq : (AoiFinder.run env [(o, n, true), (t, n, false)]).queue =
      if (intersectArea orderSubspace zeroAoi.area a.area).isSome then [(n, o, t)] else [] := by
    simp only [AoiFinder.run, List.foldl_cons, List.foldl_nil, AoiFinder.add, if_true, Bool.false_eq_true, if_false, hv0, addAoiLoop,
      List.append_nil, GoMap.set, List.filter_nil, hv, (hns n n).2 rfl, Bool.not_true, ho, ht, Option.getD_some, Option.getD_none]
    cases intersectArea orderSubspace zeroAoi.area a.area <;> simp
  rw [hq, ← hi]
  split <;> simp_all

example : exampleFinder.handlesTheirs 7 = none ∧ (AoiFinder.run exampleFinder [(0, [42], true), (7, [42], false)]).queue = [] ∧
    (AoiFinder.run { exampleFinder with handlesOurs := fun _ => some ⟨⟨[], true, [[3]], ⟨0, 0, true⟩⟩, 0, 0⟩ }
      [(0, [42], true), (7, [42], false)]).queue = [([42], 0, 7)] := by
  decide +kernel

/-! ## C64 -/

/-- Additions one after the other. -/
def addCaps (env : CapEnv) (c : CapFinder) : List UInt64 → Res CapFinder
  | [] => .ok c
  | h :: hs => do
    let c ← c.addCap env h
    addCaps env c hs

/-- C64 is violated: adding any capability to a new finder ends the process. -/
theorem C64_violated (env : CapEnv) (h : UInt64) (hs : List UInt64) : addCaps env [] (h :: hs) = .crash := rfl

example (env : CapEnv) : addCaps env [] [3, 4] = .crash ∧ addCaps env [] [] = .ok [] := ⟨C64_violated env 3 [4], rfl⟩

/-- C64, partial: the search finds a handle whose capability covers the entry, whenever the set
of the namespace has one, in every order in which Go visits the set; otherwise the result is 0.
Missing: no finder made by `AddCap` has such a set (see `C64_violated`), so this is only about
the search itself. -/
theorem C64_search_partial (env : CapEnv) (c : CapFinder) (entry : Entry) (set : GoMap UInt64 Unit)
    (hset : GoMap.get c (env.key entry.namespaceId) = some set) :
    ((∃ h, set.get h = some () ∧ InArea (env.areaOf h) entry.position) →
      set.get (c.find env entry) = some () ∧ InArea (env.areaOf (c.find env entry)) entry.position) ∧
    ((¬ ∃ h, set.get h = some () ∧ InArea (env.areaOf h) entry.position) → c.find env entry = 0) := by
  unfold CapFinder.find
  rw [hset]
  dsimp only
  have key : ∀ l : List UInt64, ((∃ h ∈ l, InArea (env.areaOf h) entry.position) →
      findCapLoop env entry.position l ∈ l ∧ InArea (env.areaOf (findCapLoop env entry.position l)) entry.position) ∧
      ((¬ ∃ h ∈ l, InArea (env.areaOf h) entry.position) → findCapLoop env entry.position l = 0) := by
    intro l
    induction l with
    | nil => simp [findCapLoop]
    | cons a l ih =>
      unfold findCapLoop
      by_cases ha : isIncludedArea orderSubspace (env.areaOf a) entry.position = true
      · rw [if_pos ha]
        have ha' := (isIncludedArea_iff decides_subspace _ _).1 ha
        exact ⟨fun _ => ⟨List.mem_cons_self, ha'⟩, fun hn => absurd ⟨a, List.mem_cons_self, ha'⟩ hn⟩
      · rw [if_neg ha]
        rw [isIncludedArea_iff decides_subspace] at ha
        constructor
        · rintro ⟨h, hm, hi⟩
          rcases List.mem_cons.1 hm with rfl | hm
          · exact absurd hi ha
          · obtain ⟨h1, h2⟩ := ih.1 ⟨h, hm, hi⟩
            exact ⟨List.mem_cons_of_mem _ h1, h2⟩
        · intro hn
          exact ih.2 fun ⟨h, hm, hi⟩ => hn ⟨h, List.mem_cons_of_mem _ hm, hi⟩
  constructor
  · rintro ⟨h, h1, h2⟩
    obtain ⟨k1, k2⟩ := (key (env.visit set)).1 ⟨h, (env.visits _ _).2 h1, h2⟩
    exact ⟨(env.visits _ _).1 k1, k2⟩
  · intro hn
    exact (key (env.visit set)).2 fun ⟨h, h1, h2⟩ => hn ⟨h, (env.visits _ _).1 h1, h2⟩

example (env : CapEnv) (hk : env.key = id) (ha : ∀ h, env.areaOf h = ⟨[if h = 3 then 7 else 8], false, [], ⟨0, 0, true⟩⟩) :
    GoMap.get [(([42] : Bytes), [((3 : UInt64), ()), (4, ())])] (env.key [42]) = some [(3, ()), (4, ())] ∧
    InArea (env.areaOf 4) (⟨[42], [8], [[1]], [], 0, 6⟩ : Entry).position := by
  refine ⟨by rw [hk]; rfl, ?_⟩
  rw [ha, ← isIncludedArea_iff decides_subspace]
  decide

/-- C64, partial: for a namespace without a set the result is 0. So a new finder finds nothing. -/
theorem C64_nothing_partial (env : CapEnv) (c : CapFinder) (entry : Entry) (h : GoMap.get c (env.key entry.namespaceId) = none) :
    c.find env entry = 0 := by
  unfold CapFinder.find
  rw [h]

/-- Handles 3 and 4 grant the subspaces 7 and 8. -/
def exampleCaps : CapEnv :=
  { namespaceOf := fun _ => [42]
    areaOf := fun h => ⟨[if h = 3 then 7 else 8], false, [], ⟨0, 0, true⟩⟩
    key := id
    visit := fun m => m.map Prod.fst
    visits := keys_get }

example : GoMap.get [(([42] : Bytes), [((3 : UInt64), ()), (4, ())])] (exampleCaps.key [42]) = some [(3, ()), (4, ())] ∧
    CapFinder.find exampleCaps [([42], [(3, ()), (4, ())])] ⟨[42], [8], [[1]], [], 0, 6⟩ = 4 := by
  constructor
  · rfl
  · decide +kernel

example : GoMap.get [(([42] : Bytes), [((3 : UInt64), ()), (4, ())])] (exampleCaps.key [43]) = none := rfl

end Willow.Props
